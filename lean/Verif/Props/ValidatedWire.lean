import Verif.Spec.ValidatedWire
import Verif.Props.BaseValues
import Verif.Props.BaseObjects
import Verif.Props.Guide
import Verif.Props.Willing
/-!
# C107 a connection with the schema validator
-/
set_option linter.unusedSectionVars false
set_option maxRecDepth 100000
namespace Laurelin.Props
open Laurelin Schema SchemaSpec Spec Spec.AttrSchema Spec.ObjectSchema Laurelin.AttrSchema Laurelin.ObjectSchema BaseRules
open Laurelin.Rfc4511 (AVal)
open Spec.ValidatedS

namespace VaW
open BaseP ObjS SchemaP

/-! ## Which errors there are -/

theorem find_noattr {E : Type} (lower : Str → Str) (r : Reg E) (x : Str) : r.find lower x ≠ .error .attributeError := by
  unfold Reg.find
  cases x with
  | nil => nofun
  | cons c t =>
    rw [show numeric (c :: t) = .ok (Rfc4512.isDigit c) from rfl]
    cases Rfc4512.isDigit c with
    | true => dsimp only; split <;> nofun
    | false => dsimp only; split <;> nofun

theorem must_noattr (g : OCGraph) (hg : ∀ s, g.resolve s ≠ .error .attributeError) : ∀ (n : Nat) (st : OCState) (i : Nat), (mustOf g n st i).2 ≠ .error .attributeError := by
  intro n
  induction n with
  | zero => intro st i; nofun
  | succ n ih =>
    intro st i
    rw [mustOf]
    split
    · nofun
    · have loop : ∀ (l : List Str) (st : OCState), (mustLoop g (mustOf g n) i st l).2 ≠ .error .attributeError := by
        intro l
        induction l with
        | nil => intro st; nofun
        | cons s l ih2 =>
          intro st
          rw [mustLoop]
          have := hg s
          cases hs : g.resolve s with
          | error e => rw [hs] at this; exact fun h => this (by cases h; rfl)
          | ok o =>
            cases o with
            | none => exact ih2 st
            | some j =>
              dsimp only
              have := ih st j
              revert this
              rcases mustOf g n st j with ⟨st', e | m⟩
              · exact fun h => h
              · exact fun _ => ih2 _
      exact loop _ _

theorem graph_noattr (lower : Str → Str) (c : Classes) (own : OCFields → List Str) (s : Str) : (c.graph lower own).resolve s ≠ .error .attributeError := by
  have := find_noattr lower c.reg s
  simp only [Classes.graph]
  cases h : c.reg.find lower s with
  | error e => rw [h] at this; exact fun h => this (by cases h; rfl)
  | ok o => cases o <;> nofun

theorem class_noattr (lower : Str → Str) (c : Classes) (n : Nat) (m : Memo) (x : Str) : (readClass lower c n m x).2 ≠ .error .attributeError := by
  have h1 := find_noattr lower c.reg x
  unfold readClass
  cases h : c.reg.find lower x with
  | error e => rw [h] at h1; exact fun h => h1 (by cases h; rfl)
  | ok o =>
    cases o with
    | dflt _ => nofun
    | elem e =>
      dsimp only
      have h2 := must_noattr _ (graph_noattr lower c (·.must)) n m.must e.body
      revert h2
      rcases mustOf (c.graph lower (·.must)) n m.must e.body with ⟨s, x | l⟩
      · exact fun h2 h => h2 (by cases h; rfl)
      · intro _
        dsimp only
        have h3 := must_noattr _ (graph_noattr lower c (·.may)) n m.may e.body
        revert h3
        rcases mustOf (c.graph lower (·.may)) n m.may e.body with ⟨s, x | l⟩
        · exact fun h3 h => h3 (by cases h; rfl)
        · exact fun _ => nofun

theorem classes_noattr (lower : Str → Str) (c : Classes) (n : Nat) (l : List Str) : ∀ m : Memo, (readClasses lower c n m l).2 ≠ .error .attributeError := by
  induction l with
  | nil => intro m; nofun
  | cons x l ih =>
    intro m
    rw [readClasses]
    have h1 := class_noattr lower c n m x
    revert h1
    rcases readClass lower c n m x with ⟨m', e | p⟩
    · exact fun h1 h => h1 (by cases h; rfl)
    · intro _
      dsimp only
      have h2 := ih m'
      revert h2
      rcases readClasses lower c n m' l with ⟨m'', e | q⟩
      · exact fun h2 h => h2 (by cases h; rfl)
      · exact fun _ => nofun

theorem gt_noattr (s : Str) : Syntax.validateGT s ≠ .error .attributeError := by
  unfold Syntax.validateGT
  repeat' split
  all_goals nofun

theorem rule_noattr (q : SyntaxRule) (v : Str) : q.validate v ≠ .error .attributeError := by
  cases q with
  | rule r =>
    cases r <;> simp only [SyntaxRule.validate, Syntax.Rule.validate]
    case fax => unfold Syntax.validateFax; repeat' split
                all_goals nofun
    all_goals (try split)
    all_goals nofun
  | time => exact gt_noattr v
  | guide => intro h; rcases c77_guide_errors v _ (.inl h) with h | h <;> cases h
  | enhancedGuide => intro h; rcases c77_guide_errors v _ (.inr h) with h | h <;> cases h
  | triple => simp only [SyntaxRule.validate]; split <;> nofun
  | bytesOnly => nofun

section
variable {lower : Str → Str} (h : AsciiLower lower) {r : Reg ATFields} {U : Uni} {depth : Nat} (hdepth : 4 ≤ depth) {sch : List (Str × Rfc4512.AttributeType)}
  (hL : AttrS.Loaded (shippedEnv lower U depth r) sch) (hmem : ∀ d, d ∈ sch.map (·.2) ↔ d ∈ types)
include h hdepth hL hmem

theorem lines : ∀ d ∈ sch.map (·.2), ∃ n, n ≤ depth ∧ ∃ x, Effective lower (sch.map (·.2)) (fun _ => (none : Option Unit)) n d x :=
  (BaseO.inOrder (depth := depth) (cs := BaseO.classes) h hdepth hmem (.refl _)).lines

/-- what validation reads of a shipped type -/
theorem info (d : Rfc4512.AttributeType) (hd : d ∈ types) : ∃ sv nu len q, (infoOf (shippedEnv lower U depth r) (saysAT d)).singleValue = .ok sv ∧
    (infoOf (shippedEnv lower U depth r) (saysAT d)).noUserMod = .ok nu ∧ (infoOf (shippedEnv lower U depth r) (saysAT d)).obsolete = .ok false ∧
    (infoOf (shippedEnv lower U depth r) (saysAT d)).syntaxLength = .ok len ∧ ∀ v, (infoOf (shippedEnv lower U depth r) (saysAT d)).syn v = SyntaxRule.validate q v := by
  obtain ⟨n, hn, y, hy⟩ := lines h hdepth hL hmem d ((hmem d).2 hd)
  obtain ⟨b1, f1, m1⟩ := flag_marked hL (·.singleValue) (·.singleValue) (fun _ => rfl) d hn hy
  obtain ⟨b2, f2, m2⟩ := flag_marked hL (·.noUserMod) (·.noUserMod) (fun _ => rfl) d hn hy
  have hob : ∃ n, d.names = [n] := by
    obtain ⟨n, _, hn⟩ := BaseP.all_listed d hd
    exact ⟨n, hn⟩
  obtain ⟨nm, hnm⟩ := hob
  have f3 := BaseO.flag_read h (Nat.le_trans (by decide) hdepth) hL hmem (·.obsolete) (·.obsolete) (fun _ => rfl) (BaseO.obsolete_ok d hd) hnm
  simp only [List.not_mem_nil, decide_false] at f3
  have hs := BaseP.syntax_ok d hd
  split at hs
  · rename_i p hp
    obtain ⟨m, hm, hx⟩ := eff_spec h _ 3 d _ hp
    obtain ⟨hsyn, hlen⟩ := (c75_rules (shippedEnv lower U depth r) sch hL d ((hmem d).2 hd) m (Nat.le_trans hm (Nat.le_trans (by decide) hdepth))).1 _ (eff_mem (fun d => (hmem d).symm) hx)
    cases hq : getSyntaxRule (baseSyntaxes ++ netgroupSyntaxes) p.1 with
    | error e => rw [hq] at hs; cases hs
    | ok q =>
      refine ⟨b1, b2, (match p.2 with | some k => (k : Int) | none => -1), q, f1, f2, f3, ?_, ?_⟩
      · simp only [infoOf, hlen, Answer.elim]; rfl
      · intro v
        simp only [infoOf, hsyn, Answer.elim]
        rw [show getSyntaxRule (shippedEnv lower U depth r).syntaxes p.1 = .ok q from hq]
  · cases hs

theorem known_noattr (d : Rfc4512.AttributeType) (hd : d ∈ types) (k : Str) (hi : Identifies lower d.oid d.names k) (vs : List Str) (w : Bool) :
    validateAttribute (attrEnv (shippedEnv lower U depth r)) k vs w ≠ .error .attributeError := by
  have hk : (attrEnv (shippedEnv lower U depth r)).attrOf k = .ok (infoOf (shippedEnv lower U depth r) (saysAT d)) := by
    have hf := hL.find.1 d ((hmem d).2 hd) k hi
    show attrOf (shippedEnv lower U depth r) k = _
    rw [attrOf, hf]
    rfl
  obtain ⟨sv, nu, len, q, h1, h2, h3, h4, h5⟩ := info h hdepth hL hmem d hd
  have hall : ∀ vs : List Str, validateAll (infoOf (shippedEnv lower U depth r) (saysAT d)) vs ≠ .error .attributeError := by
    intro vs
    induction vs with
    | nil => nofun
    | cons v vs ih =>
      have hv := rule_noattr q v
      have he : (infoOf (shippedEnv lower U depth r) (saysAT d)).validate v ≠ .error .attributeError := by
        rw [AttrInfo.validate, h4]
        simp only [bind, Except.bind]
        split
        · nofun
        · rw [h5]; exact hv
      rw [validateAll]
      simp only [bind, Except.bind]
      cases hx : (infoOf (shippedEnv lower U depth r) (saysAT d)).validate v with
      | error e => rw [hx] at he; exact he
      | ok u => exact ih
  rw [validateAttribute, hk]
  simp only [bind, Except.bind, h1, h2, h3]
  split
  · nofun
  · cases w <;> simp only [Bool.false_eq_true, if_false, if_true]
    · exact hall vs
    · split
      · nofun
      · exact hall vs

/-- a name that is not described: only an attribute without values gets through, and an attribute with values makes for the `AttributeError` -/
theorem unknown_attr (k : Str) (hno : ∀ d ∈ types, ¬ Identifies lower d.oid d.names k) (vs : List Str) (w : Bool) (hvs : vs ≠ []) :
    (UnknownName k → validateAttribute (attrEnv (shippedEnv lower U depth r)) k vs w = .error .attributeError) ∧
    (¬ UnknownName k → ∃ e, e ≠ .attributeError ∧ validateAttribute (attrEnv (shippedEnv lower U depth r)) k vs w = .error e) := by
  have hf : ∀ c t, k = c :: t → _ := fun c t hk => hL.find.2 c t (fun d hd hi => hno d ((hmem d).1 hd) (hk ▸ hi))
  constructor
  · rintro ⟨c, t, rfl, hc⟩
    have hf := hf c t rfl
    rw [hc] at hf
    have : (attrEnv (shippedEnv lower U depth r)).attrOf (c :: t) = .ok infoDefault := by
      show attrOf (shippedEnv lower U depth r) (c :: t) = _
      rw [attrOf, hf]
      rfl
    rw [validateAttribute, this]
    cases vs with
    | nil => exact absurd rfl hvs
    | cons v vs => cases w <;> rfl
  · intro hu
    cases k with
    | nil => exact ⟨.indexError, nofun, rfl⟩
    | cons c t =>
      have hf := hf c t rfl
      cases hc : Rfc4512.isDigit c with
      | false => exact absurd ⟨c, t, rfl, hc⟩ hu
      | true =>
        rw [hc] at hf
        have : (attrEnv (shippedEnv lower U depth r)).attrOf (c :: t) = .error .keyError := by
          show attrOf (shippedEnv lower U depth r) (c :: t) = _
          rw [attrOf, hf]
          rfl
        exact ⟨.keyError, nofun, by rw [validateAttribute, this]; rfl⟩

/-- the verdict on a modification: let through if it is fine, or if the `AttributeError` is swallowed -/
theorem modify_verdict (l : List (Str × List Str)) :
    (validateModify (attrEnv (shippedEnv lower U depth r)) l = .ok () ∨ validateModify (attrEnv (shippedEnv lower U depth r)) l = .error .attributeError) ↔
      LetThrough lower types (fun oid v => ∃ q, getSyntaxRule (baseSyntaxes ++ netgroupSyntaxes) oid = .ok q ∧ q.validate v = .ok ()) l := by
  have one : ∀ m : Str × List Str, validateAttribute (attrEnv (shippedEnv lower U depth r)) m.1 m.2 true = .ok () ↔ 
      (∃ d ∈ types, Identifies lower d.oid d.names m.1 ∧ GoodAttr lower types (fun oid v => ∃ q, getSyntaxRule (baseSyntaxes ++ netgroupSyntaxes) oid = .ok q ∧ q.validate v = .ok ()) d m.2 true) ∨
      ((∀ d ∈ types, ¬ Identifies lower d.oid d.names m.1) ∧ UnknownName m.1 ∧ m.2 = []) := by
    intro m
    have h1 := attr_iff hL (lines h hdepth hL hmem) m.1 m.2 true
    have h2 := validateAttribute_iff (attrEnv (shippedEnv lower U depth r)) m.1 m.2 true
    rw [h2]
    refine h1.trans ?_
    constructor
    · rintro (⟨d, hd, hi, hg⟩ | ⟨a, b⟩)
      · exact .inl ⟨d, (hmem d).1 hd, hi, BaseO.good_mem hmem hg⟩
      · exact .inr ⟨fun d hd => a d ((hmem d).2 hd), b⟩
    · rintro (⟨d, hd, hi, hg⟩ | ⟨a, b⟩)
      · exact .inl ⟨d, (hmem d).2 hd, hi, BaseO.good_mem (fun d => (hmem d).symm) hg⟩
      · exact .inr ⟨fun d hd => a d ((hmem d).1 hd), b⟩
  induction l with
  | nil => exact ⟨fun _ => .none, fun _ => .inl rfl⟩
  | cons m l ih =>
    rw [validateModify]
    by_cases hm : m.2 = []
    · rw [if_pos hm]
      refine ih.trans ?_
      obtain ⟨a, vs⟩ := m
      cases (show vs = [] from hm)
      exact ⟨.empty, fun h => by cases h with
        | empty h => exact h
        | good h => exact absurd rfl h
        | unknown h => exact absurd rfl h⟩
    · rw [if_neg hm]
      have h1 := one m
      by_cases hex : ∃ d ∈ types, Identifies lower d.oid d.names m.1
      · obtain ⟨d, hd, hi⟩ := hex
        have hna := known_noattr h hdepth hL hmem d hd m.1 hi m.2 true
        cases hv : validateAttribute (attrEnv (shippedEnv lower U depth r)) m.1 m.2 true with
        | error e =>
          rw [hv] at hna h1
          simp only [bind, Except.bind]
          constructor
          · rintro (h2 | h2)
            · cases h2
            · exact absurd h2 hna
          · intro h2
            cases h2 with
            | empty => exact absurd rfl hm
            | good _ hg => exact nomatch h1.2 (.inl hg)
            | unknown _ _ hno => exact absurd hi (hno d hd)
        | ok u =>
          rw [hv] at h1
          simp only [bind, Except.bind]
          refine ih.trans ?_
          constructor
          · intro h2
            rcases h1.1 rfl with hg | ⟨hno, _⟩
            · exact .good hm hg h2
            · exact absurd hi (hno d hd)
          · intro h2
            cases h2 with
            | empty => exact absurd rfl hm
            | good _ _ h3 => exact h3
            | unknown _ _ hno => exact absurd hi (hno d hd)
      · have hno : ∀ d ∈ types, ¬ Identifies lower d.oid d.names m.1 := fun d hd hi => hex ⟨d, hd, hi⟩
        obtain ⟨u1, u2⟩ := unknown_attr h hdepth hL hmem m.1 hno m.2 true hm
        by_cases hu : UnknownName m.1
        · rw [u1 hu]
          exact ⟨fun _ => .unknown hm hu hno, fun _ => .inr rfl⟩
        · obtain ⟨e, he, h2⟩ := u2 hu
          rw [h2]
          constructor
          · rintro (h3 | h3)
            · cases h3
            · exact absurd (by cases h3; rfl) he
          · intro h3
            cases h3 with
            | empty => exact absurd rfl hm
            | good _ hg => obtain ⟨d, hd, hi, _⟩ := hg; exact absurd hi (hno d hd)
            | unknown _ hu' _ => exact absurd hu' hu

theorem items_noattr (w : Bool) (items : List (Str × List Str)) (hk : ∀ kv ∈ items, ∃ d ∈ types, Identifies lower d.oid d.names kv.1) :
    validateItems (attrEnv (shippedEnv lower U depth r)) w items ≠ .error .attributeError := by
  induction items with
  | nil => nofun
  | cons kv l ih =>
    obtain ⟨d, hd, hi⟩ := hk kv (by simp)
    have h1 := known_noattr h hdepth hL hmem d hd kv.1 hi kv.2 w
    rw [validateItems]
    simp only [bind, Except.bind]
    cases hx : validateAttribute (attrEnv (shippedEnv lower U depth r)) kv.1 kv.2 w with
    | error e => rw [hx] at h1; exact fun hh => h1 (by cases hh; rfl)
    | ok u => exact ih (fun kv hkv => hk kv (List.mem_cons_of_mem _ hkv))

/-- the memory after validating objects is good -/
theorem good_after {csch : List (Str × Rfc4512.ObjectClass)} {c : Classes} (hcl : ClassesLoaded (shippedEnv lower U depth r) c csch) (hac : Acyclic (shippedEnv lower U depth r) csch) :
    ∀ (l : List (CIDict Str (List Str) × Bool)) (m : Memo), GoodMemo (shippedEnv lower U depth r) c m → GoodMemo (shippedEnv lower U depth r) c (validateObjects (shippedEnv lower U depth r) c m l) := by
  have hstep : ∀ (o : CIDict Str (List Str)) (w : Bool) (m : Memo), GoodMemo (shippedEnv lower U depth r) c m →
      GoodMemo (shippedEnv lower U depth r) c (Laurelin.ObjectSchema.validateObject (shippedEnv lower U depth r) c m o w).1 := by
    intro o w m hg
    simp only [Laurelin.ObjectSchema.validateObject]
    split
    · exact hg
    · rename_i ocs _
      have := (hcl.readClasses hac ocs m hg).1
      split
      · rename_i m' e he; rw [he] at this; exact this
      · rename_i m' r a he; rw [he] at this; exact this
  intro l
  induction l with
  | nil => intro m hg; exact hg
  | cons p l ih => intro m hg; exact ih _ (hstep p.1 p.2 m hg)

/-- validating an object never ends with the `AttributeError` that is swallowed: no attribute that its classes name is without a description -/
theorem object_noattr {csch : List (Str × Rfc4512.ObjectClass)} {c : Classes} (hr : DescribesClasses csch) (hcp : (csch.map (·.2)).Perm BaseO.classes) (hcl : ClassesLoaded (shippedEnv lower U depth r) c csch)
    (hac : Acyclic (shippedEnv lower U depth r) csch) (earlier : List (CIDict Str (List Str) × Bool)) (obj : CIDict Str (List Str)) (w : Bool) :
    (Laurelin.ObjectSchema.validateObject (shippedEnv lower U depth r) c (validateObjects (shippedEnv lower U depth r) c (c.start lower) earlier) obj w).2 ≠ .error .attributeError := by
  have hg := good_after h hdepth hL hmem hcl hac earlier _ good_start
  generalize hm : validateObjects (shippedEnv lower U depth r) c (c.start lower) earlier = m
  rw [show validateObjects (shippedEnv lower U depth r) c (c.start (shippedEnv lower U depth r).lower) earlier = m from hm] at hg
  simp only [Laurelin.ObjectSchema.validateObject]
  cases hoc : obj.getItem (shippedEnv lower U depth r).lower (str "objectClass") with
  | error e => nofun
  | ok ocs =>
    dsimp only
    obtain ⟨_, _, r3⟩ := hcl.readClasses hac ocs m hg
    have hne := classes_noattr (shippedEnv lower U depth r).lower c (shippedEnv lower U depth r).depth ocs m
    by_cases hk : ∀ v ∈ ocs, (∃ d ∈ csch.map (·.2), Identifies (shippedEnv lower U depth r).lower d.oid d.names v) ∨ UnknownName v
    · obtain ⟨p, hp, p1, p2⟩ := r3 hk
      have hrw : readClasses (shippedEnv lower U depth r).lower c (shippedEnv lower U depth r).depth m ocs = ((readClasses (shippedEnv lower U depth r).lower c (shippedEnv lower U depth r).depth m ocs).1, .ok (p.1, p.2)) := by rw [← hp]
      rw [hrw]
      dsimp only
      split
      · nofun
      · split
        · nofun
        · rename_i hkeys
          refine items_noattr h hdepth hL hmem w obj.items fun kv hkv => ?_
          have hin : kv.1 ∈ p.1 ∨ kv.1 ∈ p.2 := by
            have hkeys : ∀ k ∈ obj.items.map Prod.fst, k ∈ p.1 ∨ k ∈ p.2 := by
              intro k hkk
              simp only [List.any_eq_true, not_exists, not_and] at hkeys
              have := hkeys k hkk
              simp at this
              by_cases hr : k ∈ p.1
              · exact .inl hr
              · exact .inr (this hr)
            exact hkeys _ (List.mem_map.2 ⟨kv, hkv, rfl⟩)
          have habove : ∀ d e, d ∈ csch.map (·.2) → AtOrAbove lower (csch.map (·.2)) d e → e ∈ csch.map (·.2) := by
            intro d e hd h
            induction h with
            | self => exact hd
            | above c d k s _ h2 _ _ ih => exact ih h2
          have hdesc : ∀ e ∈ csch.map (·.2), (∀ a ∈ e.must, a ≠ []) ∧ ∀ a ∈ e.may, a ≠ [] := by
            intro e he
            obtain ⟨q, hq, rfl⟩ := List.mem_map.1 he
            exact lists_ne (hr q hq)
          rcases hin with hin | hin
          · obtain ⟨v, _, d, hd, _, e, he, ha⟩ := (p1 _).1 hin
            have hmn := (mentions_iff hL e.must (hdesc e (habove d e hd he)).1 kv.1).1 ha
            exact ((c76_classes lower h).2 d (hcp.mem_iff.1 hd)).2 kv.1 (.inl ⟨e, BaseO.above_mem (fun d => hcp.mem_iff) he, BaseO.mentions_mem hmem hmn⟩)
          · obtain ⟨v, _, d, hd, _, e, he, ha⟩ := (p2 _).1 hin
            have hmn := (mentions_iff hL e.may (hdesc e (habove d e hd he)).2 kv.1).1 ha
            exact ((c76_classes lower h).2 d (hcp.mem_iff.1 hd)).2 kv.1 (.inr ⟨e, BaseO.above_mem (fun d => hcp.mem_iff) he, BaseO.mentions_mem hmem hmn⟩)
    · obtain ⟨_, r2, _⟩ := hcl.readClasses hac ocs m hg
      obtain ⟨e, he⟩ := r2 hk
      have hrw : readClasses (shippedEnv lower U depth r).lower c (shippedEnv lower U depth r).depth m ocs = ((readClasses (shippedEnv lower U depth r).lower c (shippedEnv lower U depth r).depth m ocs).1, .error e) := by rw [← he]
      rw [he] at hne
      rw [hrw]
      dsimp only
      exact fun hh => hne (by cases hh; rfl)

end

/-! ## Objects as the connection gives them to the validator -/
section
open CIDict

theorem asTexts_map (l : List Str) : Api.asTexts (l.map .text) = some l := by
  induction l with
  | nil => rfl
  | cons s l ih => simp only [List.map_cons, Api.asTexts, ih, Option.map_some]

theorem asTextData_map (l : List (Str × List Str)) : Api.asTextData (l.map fun p => (p.1, p.2.map AVal.text)) = some l := by
  induction l with
  | nil => rfl
  | cons p l ih => simp only [List.map_cons, Api.asTextData, ih, asTexts_map]

theorem modTexts_map (l : List (ModOp × Str × Vals Str)) : Api.modTexts (l.map modOf) = some (l.map changeOf) := by
  induction l with
  | nil => rfl
  | cons m l ih =>
    obtain ⟨op, a, vs⟩ := m
    cases vs with
    | deleteAll => simp only [List.map_cons, Api.modTexts, ih, modOf, changeOf]
    | list vs => simp only [List.map_cons, Api.modTexts, ih, modOf, changeOf, asTexts_map]

theorem set_map {A B : Type} (f : A → B) (d : PDict Str A) (k : Str) (v : A) : PDict.set (d.map fun p => (p.1, f p.2)) k (f v) = (PDict.set d k v).map fun p => (p.1, f p.2) := by
  induction d with
  | nil => rfl
  | cons p d ih =>
    simp only [List.map_cons, PDict.set, ih]
    split <;> rfl

theorem update_map {A B : Type} (f : A → B) (lower : Str → Str) (l : List (Str × A)) : ∀ d : CIDict Str A,
    CIDict.update lower ⟨d.keys, d.data.map fun p => (p.1, f p.2)⟩ (l.map fun p => (p.1, f p.2)) =
      ⟨(CIDict.update lower d l).keys, (CIDict.update lower d l).data.map fun p => (p.1, f p.2)⟩ := by
  induction l with
  | nil => intro d; rfl
  | cons p l ih =>
    intro d
    have := ih (CIDict.setItem lower d p.1 p.2)
    simp only [CIDict.update, List.map_cons, List.foldl_cons] at this ⊢
    rw [← this]
    simp only [CIDict.setItem, set_map]

theorem update_data {A : Type} (lower : Str → Str) (l : List (Str × A)) (hn : (l.map fun p => lower p.1).Nodup) : (CIDict.update lower CIDict.empty l).data = l := by
  have hset : ∀ (d : PDict Str A) k v, k ∉ d.map Prod.fst → d.set k v = d ++ [(k, v)] := by
    intro d k v
    induction d with
    | nil => intro _; rfl
    | cons p d ih =>
      intro hk
      simp only [List.map_cons, List.mem_cons, not_or] at hk
      simp only [PDict.set, if_neg (Ne.symm hk.1), ih hk.2, List.cons_append]
  have key : ∀ (l : List (Str × A)) (d : CIDict Str A), (d.data.map Prod.fst ++ l.map Prod.fst).Nodup → (CIDict.update lower d l).data = d.data ++ l := by
    intro l
    induction l with
    | nil => intro d _; simp [CIDict.update]
    | cons p l ih =>
      intro d h
      have hk : p.1 ∉ d.data.map Prod.fst := by
        intro hm
        rw [List.nodup_append] at h
        exact h.2.2 p.1 hm p.1 (by simp) rfl
      have h1 : (CIDict.setItem lower d p.1 p.2).data = d.data ++ [p] := hset d.data _ _ hk
      have := ih (CIDict.setItem lower d p.1 p.2) (by rw [h1]; simpa using h)
      rw [h1] at this
      simp only [CIDict.update, List.foldl_cons] at this ⊢
      rw [this]
      simp
  have h1 : (l.map Prod.fst).Nodup := by
    rw [show l.map (fun p => lower p.1) = (l.map Prod.fst).map lower by rw [List.map_map]; rfl] at hn
    exact List.Pairwise.of_map _ (fun a b hab hc => hab (by rw [hc])) hn
  have := key l CIDict.empty (by simpa [CIDict.empty] using h1)
  simpa [CIDict.empty] using this

theorem object_class (lower : Str → Str) (l : List (Str × List Str)) (hn : (l.map fun p => lower p.1).Nodup) (x : Str) (ocs : List Str) :
    (CIDict.update lower CIDict.empty l).getItem lower x = .ok ocs ↔ ∃ oc ∈ l, lower oc.1 = lower x ∧ oc.2 = ocs := by
  have hinv := (CIDict.update_ok lower l (CIDict.empty : CIDict Str (List Str)) (CIDict.inv_empty lower)).1
  have hd := update_data lower l hn
  have h1 : (l.map Prod.fst).Nodup := by
    rw [show l.map (fun p => lower p.1) = (l.map Prod.fst).map lower by rw [List.map_map]; rfl] at hn
    exact List.Pairwise.of_map _ (fun a b hab hc => hab (by rw [hc])) hn
  have hfwd : (CIDict.update lower CIDict.empty l).getItem lower x = .ok ocs → ∃ oc ∈ l, lower oc.1 = lower x ∧ oc.2 = ocs := by
    unfold CIDict.getItem
    cases hk : (CIDict.update lower CIDict.empty l).keys.get? (lower x) with
    | none => nofun
    | some k =>
      dsimp only
      rw [hd]
      cases hv : PDict.get? l k with
      | none => nofun
      | some v =>
        intro h
        cases h
        exact ⟨(k, ocs), (PDict.mem_iff_get? l h1 k ocs).2 hv, (hinv.cas _ _ hk).1, rfl⟩
  refine ⟨hfwd, ?_⟩
  rintro ⟨oc, hoc, hlow, rfl⟩
  have hself := (CIDict.update_ok lower l (CIDict.empty : CIDict Str (List Str)) (CIDict.inv_empty lower)).2
  rw [CIDict.getItem_eq lower _ hinv x, hself, ← hlow]
  have key : ∀ (l : List (Str × List Str)) (acc : FoldMap Str (List Str)), (l.map (fun kv => lower kv.1)).Nodup →
      (∀ x, x ∉ l.map (fun kv => lower kv.1) → (l.foldl (fun acc kv => FoldMap.put lower acc kv.1 kv.2) acc) x = acc x) ∧
      ∀ kv ∈ l, (l.foldl (fun acc kv => FoldMap.put lower acc kv.1 kv.2) acc) (lower kv.1) = some kv.2 := by
    intro l
    induction l with
    | nil => intro acc _; exact ⟨fun _ _ => rfl, nofun⟩
    | cons p l ih =>
      intro acc hn
      simp only [List.map_cons, List.nodup_cons] at hn
      obtain ⟨g1, g2⟩ := ih (FoldMap.put lower acc p.1 p.2) hn.2
      simp only [List.foldl_cons]
      constructor
      · intro x hx
        simp only [List.map_cons, List.mem_cons, not_or] at hx
        rw [g1 x hx.2]
        simp [FoldMap.put, hx.1]
      · intro kv hkv
        rcases List.mem_cons.1 hkv with rfl | hkv
        · rw [g1 _ hn.1]
          simp [FoldMap.put]
        · exact g2 kv hkv
  rw [(key l _ hn).2 oc hoc]

end

/-- what the validator says -/
theorem verdicts {lower : Str → Str} (h : AsciiLower lower) {g : Api.Guard} (hg : Shipped lower g) {m : Memo} (hm : Remembers g m) :
    (∀ (obj : CIDict Str (List Str)) (w : Bool), (Laurelin.ObjectSchema.validateObject g.env g.classes m obj w).2 ≠ .error .attributeError ∧
      ((Laurelin.ObjectSchema.validateObject g.env g.classes m obj w).2 = .ok () ↔ ∃ ocs, obj.getItem lower (str "objectClass") = .ok ocs ∧
        Follows lower BaseP.types BaseO.classes ShippedSyntax (fun a k => a = k) ocs obj.items w)) ∧
    (∀ l, (validateModify (attrEnv g.env) l = .ok () ∨ validateModify (attrEnv g.env) l = .error .attributeError) ↔ LetThrough lower BaseP.types ShippedSyntax l) := by
  obtain ⟨ts, cs, r, U, depth, hts, hcs, hdepth, hr, he, hc⟩ := hg
  obtain ⟨earlier, rfl⟩ := hm
  obtain ⟨ge, c, ro, rm⟩ := g
  dsimp only at he hc ⊢
  subst he
  obtain ⟨sch, hL, hmem⟩ := BaseP.loaded h hts hr U depth
  obtain ⟨csch, hp, rfl⟩ := BaseP.perm_map (·.1) hcs BaseO.schema BaseO.schema_texts
  have hcp : (csch.map (·.2)).Perm BaseO.classes := by rw [← BaseO.schema_classes]; exact hp.map _
  have hD : DescribesClasses csch := by
    intro p hp'
    refine BaseO.zip_read _ _ BaseO.texts ?_ p (hp.mem_iff.1 hp')
    intro a ha
    rcases List.mem_append.1 ha with ha | ha
    · exact Render.base_classes_ok a ha
    · exact Render.netgroup_classes_ok a ha
  have hO : InOrder lower (sch.map (·.2)) (csch.map (·.2)) depth := BaseO.inOrder h hdepth hmem hcp
  refine ⟨fun obj w => ⟨?_, ?_⟩, modify_verdict h hdepth hL hmem⟩
  · exact object_noattr h hdepth hL hmem hD hcp ⟨hD, hO.distinct, hc⟩ ⟨hO.supers, hO.ranked⟩ earlier obj w
  · obtain ⟨c', hc', key⟩ := c78_accepts (shippedEnv lower U depth r) sch hL csch hD hO earlier obj w
    have hcc : c' = c := by
      have := hc.symm.trans hc'
      simp only [Prod.mk.injEq, and_true] at this
      exact this.symm
    subst hcc
    refine key.trans ?_
    constructor
    · rintro ⟨ocs, h1, h2⟩
      exact ⟨ocs, h1, BaseO.follows_mem hmem (fun d => hcp.mem_iff) h2⟩
    · rintro ⟨ocs, h1, h2⟩
      exact ⟨ocs, h1, BaseO.follows_mem (fun d => (hmem d).symm) (fun d => hcp.mem_iff.symm) h2⟩

theorem validate_append (env : Laurelin.AttrSchema.Env) (c : Classes) (x : CIDict Str (List Str) × Bool) : ∀ (l : List (CIDict Str (List Str) × Bool)) (m : Memo),
    validateObjects env c m (l ++ [x]) = (Laurelin.ObjectSchema.validateObject env c (validateObjects env c m l) x.1 x.2).1 := by
  intro l
  induction l with
  | nil => intro m; rfl
  | cons p l ih => intro m; exact ih _

theorem look_remembers {g : Api.Guard} {m : Memo} (hm : Remembers g m) (p : Str × AttrsDict AVal) (w : Bool := true) : Remembers g (g.look m p w).1 := by
  obtain ⟨earlier, rfl⟩ := hm
  unfold Api.Guard.look
  split
  · exact ⟨earlier ++ [(⟨_, _⟩, w)], (validate_append _ _ (⟨_, _⟩, w) _ _).symm⟩
  · exact ⟨earlier, rfl⟩

section
open Laurelin.Api OverWire
variable {V R M S : Type} (C : Net.Codec UInt8 M) (view : M → Laurelin.Asn1.Val) (peer : Peer S)

theorem look_texts {lower : Str → Str} (g : Guard) (m : Memo) (dn : Str) (attrs : List (Str × List Str)) (w : Bool) :
    g.look m (dn, CIDict.update lower CIDict.empty (attrs.map fun p => (p.1, p.2.map AVal.text))) w =
      Laurelin.ObjectSchema.validateObject g.env g.classes m (CIDict.update lower CIDict.empty attrs) w := by
  have hu : CIDict.update lower CIDict.empty (attrs.map fun p => (p.1, p.2.map AVal.text)) = _ := update_map (fun l : List Str => l.map AVal.text) lower attrs CIDict.empty
  rw [hu]
  simp only [Guard.look, asTextData_map]

/-- the verdict on an object given to `add` -/
theorem look_iff {lower : Str → Str} (h : AsciiLower lower) {g : Guard} (hg : Shipped lower g) {m : Memo} (hm : Remembers g m) (dn : Str) (attrs : List (Str × List Str)) (hn : (attrs.map fun p => lower p.1).Nodup) (w : Bool := true) :
    (Conforms lower BaseP.types BaseO.classes ShippedSyntax attrs w → (g.look m (dn, CIDict.update lower CIDict.empty (attrs.map fun p => (p.1, p.2.map AVal.text))) w).2 = .ok ()) ∧
    (¬ Conforms lower BaseP.types BaseO.classes ShippedSyntax attrs w → ∃ e, e ≠ .attributeError ∧ (g.look m (dn, CIDict.update lower CIDict.empty (attrs.map fun p => (p.1, p.2.map AVal.text))) w).2 = .error e) := by
  obtain ⟨v1, v2⟩ := (verdicts h hg hm).1 (CIDict.update lower CIDict.empty attrs) w
  rw [look_texts]
  have hiff : (Laurelin.ObjectSchema.validateObject g.env g.classes m (CIDict.update lower CIDict.empty attrs) w).2 = .ok () ↔ Conforms lower BaseP.types BaseO.classes ShippedSyntax attrs w := by
    refine v2.trans ?_
    have hd : (CIDict.update lower CIDict.empty attrs).items = attrs := update_data lower attrs hn
    rw [hd]
    constructor
    · rintro ⟨ocs, h1, h2⟩
      obtain ⟨oc, h3, h4, rfl⟩ := (object_class lower attrs hn _ _).1 h1
      exact ⟨oc, h3, h4, h2⟩
    · rintro ⟨oc, h3, h4, h2⟩
      exact ⟨oc.2, (object_class lower attrs hn _ _).2 ⟨oc, h3, h4, rfl⟩, h2⟩
  refine ⟨hiff.2, fun hno => ?_⟩
  cases hx : (Laurelin.ObjectSchema.validateObject g.env g.classes m (CIDict.update lower CIDict.empty attrs) w).2 with
  | ok u => exact absurd (hiff.1 hx) hno
  | error e => exact ⟨e, fun he => v1 (by rw [hx, he]), rfl⟩

theorem lookModify_iff {lower : Str → Str} (h : AsciiLower lower) {g : Guard} (hg : Shipped lower g) {m : Memo} (hm : Remembers g m) (dn : Str) (mods : List (ModOp × Str × Vals Str)) (cur : Option (AttrsDict AVal)) :
    (g.lookModify (dn, mods.map modOf, cur) = .ok () ∨ g.lookModify (dn, mods.map modOf, cur) = .error .attributeError) ↔ LetThrough lower BaseP.types ShippedSyntax (mods.map changeOf) := by
  simp only [Guard.lookModify, modTexts_map]
  exact (verdicts h hg hm).2 _

end

end VaW

section
open Laurelin.Api OverWire VaW
variable {V R M S : Type} (C : Net.Codec UInt8 M) (view : M → Laurelin.Asn1.Val) (peer : Peer S)

/-- **C107 (adding).** On a connection that has the schema validator with the schema that is shipped, whatever it validated before: an `add` of attributes that follow the schema does what it does on a connection without it;
of any others it raises, nothing is written and nothing changes. -/
theorem c107_add (env : Api.Env V R) (hA : AsciiLower env.lower) (g : Guard) (hg : Shipped env.lower g) (m : Memo) (hm : Remembers g m) (l : Link M S) (dn : Str) (attrs : List (Str × List Str))
    (hn : (attrs.map fun p => env.lower p.1).Nodup) :
    (Conforms env.lower BaseP.types BaseO.classes ShippedSyntax attrs true →
      call C view peer (guarded g m env) l (.add dn (attrs.map fun p => (p.1, p.2.map .text))) = call C view peer env l (.add dn (attrs.map fun p => (p.1, p.2.map .text)))) ∧
    (¬ Conforms env.lower BaseP.types BaseO.classes ShippedSyntax attrs true → ∃ e, call C view peer (guarded g m env) l (.add dn (attrs.map fun p => (p.1, p.2.map .text))) = (l, .error e)) := by
  obtain ⟨h1, h2⟩ := look_iff hA hg hm dn attrs hn
  constructor
  · intro hc
    have h1 := h1 hc
    simp only [call, ldapAdd, guarded, runValidation, h1]
    rfl
  · intro hc
    obtain ⟨e, he, h3⟩ := h2 hc
    simp only [call, ldapAdd, guarded, runValidation, h3]
    cases env.conn.unbound with
    | true => exact ⟨.unbound, rfl⟩
    | false =>
      simp only [Bool.false_eq_true, if_false]
      cases hk : env.ctrls with
      | error e' => exact ⟨e', by simp only [Api.Env.ctrlsOk, hk]; rfl⟩
      | ok _ =>
        refine ⟨e, ?_⟩
        simp only [Api.Env.ctrlsOk, hk]
        cases e <;> first | exact absurd rfl he | rfl

/-- **C107 (modifying).** A `modify` whose changes are let through does what it does on a connection without the validator; any other raises, nothing is written and nothing changes. -/
theorem c107_modify (env : Api.Env V R) (hA : AsciiLower env.lower) (g : Guard) (hg : Shipped env.lower g) (m : Memo) (hm : Remembers g m) (l : Link M S) (dn : Str) (mods : List (ModOp × Str × Vals Str)) (cur : Option (AttrsDict AVal)) :
    (LetThrough env.lower BaseP.types ShippedSyntax (mods.map changeOf) →
      call C view peer (guarded g m env) l (.modify dn (mods.map modOf) cur) = call C view peer env l (.modify dn (mods.map modOf) cur)) ∧
    (¬ LetThrough env.lower BaseP.types ShippedSyntax (mods.map changeOf) → ∃ e, call C view peer (guarded g m env) l (.modify dn (mods.map modOf) cur) = (l, .error e)) := by
  have hiff := lookModify_iff hA hg hm dn mods cur
  constructor
  · intro hc
    rcases hiff.2 hc with h1 | h1
    · simp only [call, ldapModify, guarded, runValidation, h1]
      rfl
    · simp only [call, ldapModify, guarded, runValidation, h1]
      rfl
  · intro hc
    cases mods with
    | nil => exact absurd .none hc
    | cons md mods =>
      cases hx : g.lookModify (dn, (md :: mods).map modOf, cur) with
      | ok u => exact absurd (hiff.1 (.inl hx)) hc
      | error e =>
        have he : e ≠ .attributeError := fun he => hc (hiff.1 (.inr (by rw [hx, he])))
        simp only [call, ldapModify, guarded, runValidation, hx]
        cases env.conn.unbound with
        | true => exact ⟨.unbound, rfl⟩
        | false =>
          refine ⟨e, ?_⟩
          cases e <;> first | exact absurd rfl he | rfl

/-- **C107 (everything else).** No other call is touched by the validator. -/
theorem c107_other (env : Api.Env V R) (g : Guard) (m : Memo) (l : Link M S) (c : Api.Call V) (h1 : ∀ dn attrs, c ≠ .add dn attrs) (h2 : ∀ dn mods cur, c ≠ .modify dn mods cur) :
    call C view peer (guarded g m env) l c = call C view peer env l c := by
  cases c with
  | add dn attrs => exact absurd rfl (h1 dn attrs)
  | modify dn mods cur => exact absurd rfl (h2 dn mods cur)
  | _ => rfl

/-- **C107 (a history).** Whatever calls are made one after the other: what the other side gets, what it answers and where the connection ends up is that of the calls the validator lets through, made on a connection without it. -/
theorem c107_run (env : Api.Env V R) (hA : AsciiLower env.lower) (g : Guard) (hg : Shipped env.lower g) (l : Link M S) (cs ks : List (Api.Call V))
    (hk : Kept env.lower BaseP.types BaseO.classes ShippedSyntax cs ks) :
    (guardedRun C view peer g env (g.classes.start g.env.lower) l cs).2 = ks.foldl (fun l c => (call C view peer env l c).1) l := by
  have step : ∀ (m : Memo) (l : Link M S) (c : Api.Call V), Remembers g m → Remembers g (guardedCall C view peer g env m l c).1.1 := by
    intro m l c hm
    unfold guardedCall
    dsimp only
    cases c with
    | add dn attrs =>
      dsimp only
      split
      · exact hm
      · split
        · exact hm
        · exact look_remembers hm _
    | _ => exact hm
  have link : ∀ (m : Memo) (l : Link M S) (c : Api.Call V), (guardedCall C view peer g env m l c).1.2 = (call C view peer (guarded g m env) l c).1 := fun _ _ _ => rfl
  have key : ∀ (m : Memo) (l : Link M S), Remembers g m → (guardedRun C view peer g env m l cs).2 = ks.foldl (fun l c => (call C view peer env l c).1) l := by
    induction hk with
    | nil => intro m l _; rfl
    | @added dn attrs _ _ hn hc _ ih =>
      intro m l hm
      have h1 := (c107_add C view peer env hA g hg m hm l dn attrs hn).1 hc
      simp only [guardedRun, List.foldl_cons]
      rw [ih _ _ (step _ _ _ hm), link, h1]
    | @notAdded dn attrs _ _ hn hc _ ih =>
      intro m l hm
      obtain ⟨e, h1⟩ := (c107_add C view peer env hA g hg m hm l dn attrs hn).2 hc
      simp only [guardedRun]
      rw [ih _ _ (step _ _ _ hm), link, h1]
    | @modified dn mods cur _ _ hc _ ih =>
      intro m l hm
      have h1 := (c107_modify C view peer env hA g hg m hm l dn mods cur).1 hc
      simp only [guardedRun, List.foldl_cons]
      rw [ih _ _ (step _ _ _ hm), link, h1]
    | @notModified dn mods cur _ _ hc _ ih =>
      intro m l hm
      obtain ⟨e, h1⟩ := (c107_modify C view peer env hA g hg m hm l dn mods cur).2 hc
      simp only [guardedRun]
      rw [ih _ _ (step _ _ _ hm), link, h1]
    | other h1 h2 _ ih =>
      intro m l hm
      have h1 := c107_other C view peer env g m l _ h1 h2
      simp only [guardedRun, List.foldl_cons]
      rw [ih _ _ (step _ _ _ hm), link, h1]
  exact key _ _ ⟨[], rfl⟩

theorem VaW.asTexts_raw {l : List AVal} {b : List UInt8} (h : AVal.raw b ∈ l) : asTexts l = none := by
  induction l with
  | nil => cases h
  | cons v l ih =>
    cases v with
    | raw _ => rfl
    | text s =>
      rcases List.mem_cons.1 h with h | h
      · cases h
      · simp only [asTexts, ih h, Option.map_none]

theorem VaW.asTextData_raw {l : List (Str × List AVal)} {p : Str × List AVal} {b : List UInt8} (hp : p ∈ l) (h : AVal.raw b ∈ p.2) : asTextData l = none := by
  induction l with
  | nil => cases hp
  | cons q l ih =>
    rcases List.mem_cons.1 hp with rfl | hp
    · simp only [asTextData, VaW.asTexts_raw h]
    · simp only [asTextData, ih hp]
      cases asTexts q.2 <;> rfl

theorem VaW.modTexts_raw {l : List (Mod AVal)} {md : Mod AVal} {vs : List AVal} {b : List UInt8} (hm : md ∈ l) (hv : md.vals = .list vs) (h : AVal.raw b ∈ vs) : modTexts l = none := by
  induction l with
  | nil => cases hm
  | cons q l ih =>
    rcases List.mem_cons.1 hm with rfl | hm
    · simp only [modTexts, hv, VaW.asTexts_raw h]
    · simp only [modTexts, ih hm]
      split <;> simp_all

/-- **C107 (values that are not text).** An `add` with a value that is not text is left to the judgement that is a parameter: if that lets it through, nothing is different; if it refuses, nothing is written and nothing changes. -/
theorem c107_raw (env : Api.Env V R) (g : Guard) (m : Memo) (l : Link M S) (dn : Str) (attrs : List (Str × List AVal)) (hn : (attrs.map fun p => env.lower p.1).Nodup)
    (p : Str × List AVal) (hp : p ∈ attrs) (b : List UInt8) (hb : AVal.raw b ∈ p.2) :
    (g.rawObject (dn, CIDict.update env.lower CIDict.empty attrs) = .ok () → call C view peer (guarded g m env) l (.add dn attrs) = call C view peer env l (.add dn attrs)) ∧
    (∀ e, e ≠ .attributeError → g.rawObject (dn, CIDict.update env.lower CIDict.empty attrs) = .error e → ∃ e, call C view peer (guarded g m env) l (.add dn attrs) = (l, .error e)) := by
  have hl : g.look m (dn, CIDict.update env.lower CIDict.empty attrs) = (m, g.rawObject (dn, CIDict.update env.lower CIDict.empty attrs)) := by
    simp only [Guard.look, update_data env.lower attrs hn, VaW.asTextData_raw hp hb]
  constructor
  · intro h1
    simp only [call, ldapAdd, guarded, runValidation, hl, h1]
    rfl
  · intro e he h3
    simp only [call, ldapAdd, guarded, runValidation, hl, h3]
    cases env.conn.unbound with
    | true => exact ⟨.unbound, rfl⟩
    | false =>
      simp only [Bool.false_eq_true, if_false]
      cases hk : env.ctrls with
      | error e' => exact ⟨e', by simp only [Api.Env.ctrlsOk, hk]; rfl⟩
      | ok _ =>
        refine ⟨e, ?_⟩
        simp only [Api.Env.ctrlsOk, hk]
        cases e <;> first | exact absurd rfl he | rfl

/-- the same for a `modify` -/
theorem c107_raw_modify (env : Api.Env V R) (g : Guard) (m : Memo) (l : Link M S) (dn : Str) (mods : List (Mod AVal)) (cur : Option (AttrsDict AVal))
    (md : Mod AVal) (hm : md ∈ mods) (vs : List AVal) (hv : md.vals = .list vs) (b : List UInt8) (hb : AVal.raw b ∈ vs) :
    (g.rawModify (dn, mods, cur) = .ok () → call C view peer (guarded g m env) l (.modify dn mods cur) = call C view peer env l (.modify dn mods cur)) ∧
    (∀ e, e ≠ .attributeError → g.rawModify (dn, mods, cur) = .error e → ∃ e, call C view peer (guarded g m env) l (.modify dn mods cur) = (l, .error e)) := by
  have hl : g.lookModify (dn, mods, cur) = g.rawModify (dn, mods, cur) := by
    simp only [Guard.lookModify, VaW.modTexts_raw hm hv hb]
  constructor
  · intro h1
    simp only [call, ldapModify, guarded, runValidation, hl, h1]
    rfl
  · intro e he h3
    cases mods with
    | nil => cases hm
    | cons q mods =>
      simp only [call, ldapModify, guarded, runValidation, hl, h3]
      cases env.conn.unbound with
      | true => exact ⟨.unbound, rfl⟩
      | false =>
        refine ⟨e, ?_⟩
        cases e <;> first | exact absurd rfl he | rfl

/-- **C107 (asking).** `validate()` of an object returns exactly if its attributes follow the schema, attributes that only the server sets included, and otherwise raises; what the validator remembers stays in order. -/
theorem c107_validate {lower : Str → Str} (hA : AsciiLower lower) (g : Guard) (hg : Shipped lower g) (m : Memo) (hm : Remembers g m) (dn : Str) (attrs : List (Str × List Str))
    (hn : (attrs.map fun p => lower p.1).Nodup) :
    ((objValidate g m [] (dn, CIDict.update lower CIDict.empty (attrs.map fun p => (p.1, p.2.map .text)))).2 = .ok () ↔ Conforms lower BaseP.types BaseO.classes ShippedSyntax attrs false) ∧
    Remembers g (objValidate g m [] (dn, CIDict.update lower CIDict.empty (attrs.map fun p => (p.1, p.2.map .text)))).1 := by
  obtain ⟨h1, h2⟩ := look_iff hA hg hm dn attrs hn false
  refine ⟨⟨fun h => ?_, fun h => ?_⟩, look_remembers hm _ false⟩
  · refine Classical.byContradiction fun hno => ?_
    obtain ⟨e, he, h3⟩ := h2 hno
    simp only [objValidate, runValidation, h3] at h
    cases e <;> first | exact he rfl | cases h
  · simp only [objValidate, runValidation, h1 h]

/-- **C107 (asking about a modification).** `validate_modify` of an object returns exactly if `modify` on the connection would not be refused by the validator. -/
theorem c107_validate_modify {lower : Str → Str} (hA : AsciiLower lower) (g : Guard) (hg : Shipped lower g) (m : Memo) (hm : Remembers g m) (o : Str × AttrsDict AVal) (mods : List (ModOp × Str × Vals Str)) :
    objValidateModify g [] o (mods.map modOf) = .ok () ↔ LetThrough lower BaseP.types ShippedSyntax (mods.map changeOf) := by
  rw [← lookModify_iff hA hg hm o.1 mods (some o.2)]
  simp only [objValidateModify, runValidation]
  cases g.lookModify (o.1, mods.map modOf, some o.2) with
  | ok u => exact ⟨fun _ => .inl rfl, fun _ => rfl⟩
  | error e => cases e <;> simp

/-! ## What the first undescribed name hides -/

/-- **C107 (found).** Whatever follows a change that has values for an undescribed name is not looked at: the modification is sent. -/
theorem c107_unknown (env : Api.Env V R) (hA : AsciiLower env.lower) (g : Guard) (hg : Shipped env.lower g) (m : Memo) (hm : Remembers g m) (l : Link M S) (dn : Str) (op : ModOp) (a v : Str) (vs : List Str)
    (rest : List (ModOp × Str × Vals Str)) (cur : Option (AttrsDict AVal)) (ha : UnknownName a) (hno : ∀ d ∈ BaseP.types, ¬ Identifies env.lower d.oid d.names a) :
    call C view peer (guarded g m env) l (.modify dn (((op, a, .list (v :: vs)) :: rest).map modOf) cur) = call C view peer env l (.modify dn (((op, a, .list (v :: vs)) :: rest).map modOf) cur) :=
  (c107_modify C view peer env hA g hg m hm l dn _ cur).1 (.unknown (by nofun) ha hno)

/-- a name that is not described, and a time stamp that only the server may set -/
def drink : ModOp × Str × Vals Str := (.replace, str "favouriteDrink", .list [str "tea"])
def stamp : ModOp × Str × Vals Str := (.replace, str "createTimestamp", .list [str "20260101000000Z"])

/-- **C107 (found, both orders).** The same two changes are refused in one order and sent in the other. -/
theorem c107_order (env : Api.Env V R) (hA : AsciiLower env.lower) (g : Guard) (hg : Shipped env.lower g) (m : Memo) (hm : Remembers g m) (l : Link M S) (dn : Str) (cur : Option (AttrsDict AVal)) :
    (∃ e, call C view peer (guarded g m env) l (.modify dn ([stamp, drink].map modOf) cur) = (l, .error e)) ∧
    call C view peer (guarded g m env) l (.modify dn ([drink, stamp].map modOf) cur) = call C view peer env l (.modify dn ([drink, stamp].map modOf) cur) := by
  constructor
  · refine (c107_modify C view peer env hA g hg m hm l dn [stamp, drink] cur).2 fun hl => ?_
    have h1 := ((verdicts hA hg hm).2 _).2 hl
    obtain ⟨ts, cs, r, U, depth, hts, hcs, hdepth, hr, he, hc⟩ := hg
    have h2 := (c76_server_only env.lower hA ts hts r hr U depth (Nat.le_trans (by decide) hdepth) (str "createTimestamp") (by decide +kernel) (str "createTimestamp") ⟨⟨_, _, rfl, by decide⟩, rfl⟩
      [str "20260101000000Z"]).1 (by decide +kernel)
    rw [← he] at h2
    have h3 : validateModify (attrEnv g.env) ([stamp, drink].map changeOf) = .error .ldapValidation := by
      simp only [List.map_cons, changeOf, stamp, validateModify, h2]
      rfl
    rw [h3] at h1
    rcases h1 with h1 | h1 <;> cases h1
  · refine c107_unknown C view peer env hA g hg m hm l dn .replace _ _ [] [stamp] cur ⟨'f', _, rfl, by decide⟩ fun d hd hi => ?_
    have key : BaseO.name? (str "favouriteDrink") = true ∧ ∀ d ∈ BaseP.types, BaseO.ident d.names (str "favouriteDrink") = false := by decide +kernel
    have := (BaseO.ident_iff hA key.1 (BaseO.type_ascii hd) (BaseO.type_oids d hd)).1 hi
    rw [key.2 d hd] at this
    cases this

end

/-! ## Instances -/

/-- such a validator exists -/
theorem c107_shipped (lower : Str → Str) (h : AsciiLower lower) : ∃ g, Shipped lower g := by
  obtain ⟨r, c, h1, h2, _⟩ := c76_accepts lower h _ (.refl _) _ (.refl _) ⟨id, id⟩ 900 (by decide)
  exact ⟨⟨shippedEnv lower ⟨id, id⟩ 900 r, c, fun _ => .ok (), fun _ => .ok ()⟩, _, _, r, _, 900, .refl _, .refl _, by decide, h1, rfl, h2⟩

/-- a person -/
def annLee (sn : Str) : List (Str × List Str) := [(str "objectClass", [str "top", str "Person"]), (str "cn", [str "Ann Lee", str "Ann"]), (sn, [str "Lee"])]

/-- follows the schema with the surname spelled as the class spells it, and not otherwise; her name may be changed -/
theorem c107_person : ((annLee (str "sn")).map fun p => BaseP.al p.1).Nodup ∧ Conforms BaseP.al BaseP.types BaseO.classes ShippedSyntax (annLee (str "sn")) true ∧
    ¬ Conforms BaseP.al BaseP.types BaseO.classes ShippedSyntax (annLee (str "SN")) true ∧
    LetThrough BaseP.al BaseP.types ShippedSyntax ([(.replace, str "CN", .list [str "Anne"]), (.delete, str "sn", .deleteAll)].map changeOf) := by
  have hA : AsciiLower BaseP.al := fun _ _ => rfl
  refine ⟨by decide, ⟨_, List.mem_cons_self .., rfl, ?_, ?_, ?_, ?_⟩, ?_, ?_⟩
  · intro v hv
    refine .inr ?_
    simp only [List.mem_cons, List.not_mem_nil, or_false] at hv
    rcases hv with rfl | rfl
    · exact ⟨'t', _, rfl, by decide⟩
    · exact ⟨'P', _, rfl, by decide⟩
  · intro v hv c hc hi a ha
    have key : ∀ v ∈ [str "top", str "Person"], BaseO.name? v = true ∧ ∀ c ∈ BaseO.classes, BaseO.ident c.names v = true → ∀ a ∈ BaseO.requires c, a ∈ [str "objectClass", str "cn", str "sn"] := by
      decide +kernel
    have hk := (key v hv).2 c hc ((BaseO.class_ident hA hc (key v hv).1).1 hi) a ((BaseO.requires_iff hA hc a).1 ha)
    exact ⟨a, hk, rfl⟩
  · intro k hk
    have key : ∀ k ∈ [str "objectClass", str "cn", str "sn"], BaseO.name? (str "Person") = true ∧ ∃ c ∈ BaseO.classes, BaseO.ident c.names (str "Person") = true ∧ k ∈ BaseO.requires c := by decide +kernel
    obtain ⟨hn, c, hc, hi, hr⟩ := key k hk
    exact ⟨_, by simp, c, hc, (BaseO.class_ident hA hc hn).2 hi, k, rfl, .inl ((BaseO.requires_iff hA hc k).2 hr)⟩
  · intro kv hkv
    have key : ∀ kv ∈ annLee (str "sn"), BaseO.attrOk kv.1 kv.2 = true := by decide +kernel
    exact .inl (BaseO.attrOk_good hA (key kv hkv) true)
  · rintro ⟨oc, hoc, hl, hf⟩
    have key : BaseO.name? (str "Person") = true ∧ ∃ c ∈ BaseO.classes, BaseO.ident c.names (str "Person") = true ∧ str "sn" ∈ BaseO.requires c := by decide +kernel
    obtain ⟨hn, c, hc, hi, hr⟩ := key
    have hoc2 : oc.2 = [str "top", str "Person"] := by
      have : ∀ oc ∈ annLee (str "SN"), BaseP.al oc.1 = BaseP.al (str "objectClass") → oc.2 = [str "top", str "Person"] := by decide
      exact this oc hoc hl
    rw [hoc2] at hf
    obtain ⟨k, hk, rfl⟩ := hf.required (str "Person") (by simp) c hc ((BaseO.class_ident hA hc hn).2 hi) (str "sn") ((BaseO.requires_iff hA hc _).2 hr)
    have hk' : str "sn" ∈ [str "objectClass", str "cn", str "SN"] := hk
    exact absurd hk' (by decide)
  · exact .good (by nofun) (BaseO.attrOk_good hA (by decide +kernel) true) (.empty .none)

end Laurelin.Props
