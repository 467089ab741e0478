import Verif.Model.Prep
import Verif.Model.SchemaSpec
import Verif.Model.Utils
import Verif.Model.Netgroups
/-!
All syntax rules and equality matching rules of laurelin/extensions/base_schema.py:1085-1623 (and the syntax of laurelin/extensions/netgroups.py:118-121), by OID and name, and
their lookup (laurelin/ldap/rules.py:14-18, 92-103). Values are `str`; `bytes` values are not modelled.

The classes are instantiated on first use and the instance is kept; that this always gives an instance of the class registered for the identifier is C32 (`c32_rules_partial`), so
only the class matters here.
-/
namespace Laurelin.BaseRules
open Laurelin Syntax SchemaSpec

/-! ### Guides, base_schema.py:1162-1262, 1346-1358 -/

/-- base_schema.py:1211-1215 `_term` -/
def guideTerm : Rx :=
  .any [.cat [oid, .lit ['$'], .any ([str "EQ", str "SUBSTR", str "GE", str "LE", str "APPROX"].map .lit)], .lit (str "?true"), .lit (str "?false")]

/-- base_schema.py:1245 `_object_class` -/
def guideClass : Rx := .cat [wsp, oid, wsp]

/-- `if term != '': if not self._term.match(term): raise`, base_schema.py:1228-1231, 1239-1242: `match` is not anchored at the end -/
def checkTerm (term : Str) : Except Err Unit :=
  if term ≠ [] ∧ guideTerm.prefixMatch term = false then .error .invalidSyntax else .ok ()

/-- `_validate_criteria`, base_schema.py:1217-1243, from a position on with the text of the current term (in order). A parenthesized part is checked on its own, without ending the current
term. `fuel`: at least the length of the text (each round and each recursive call is on a shorter one). -/
def criteria : Nat → Str → Str → Except Err Unit
  | 0, _, _ => .error .recursion
  | _ + 1, term, [] => checkTerm term
  | fuel + 1, term, c :: t =>
    if c = '(' then
      match findClosingParen (c :: t) with
      | .error e => .error e
      | .ok e =>
        match criteria fuel [] (t.take (e - 1)) with
        | .error e => .error e
        | .ok () => criteria fuel term (t.drop e)
    else if c = '|' ∨ c = '&' then
      match checkTerm term with
      | .error e => .error e
      | .ok () => criteria fuel [] t
    else if c = '!' then criteria fuel term t
    else criteria fuel (term ++ [c]) t

/-- `self._validate_criteria(criteria.strip())` -/
def validateCriteria (s : Str) : Except Err Unit :=
  let s := pyStrip (inClass pySpace) s
  criteria (s.length + 1) [] s

/-- base_schema.py:1246 -/
def guideSubsets : List Str := [str "baseobject", str "oneLevel", str "wholeSubtree"]

/-- `EnhancedGuide.validate`, base_schema.py:1248-1260 -/
def validateEnhancedGuide (s : Str) : Except Err Unit :=
  match pySplit '#' s with
  | [cls, crit, subset] =>
    if guideClass.prefixMatch cls = false then .error .invalidSyntax
    else if pyStrip (inClass pySpace) subset ∉ guideSubsets then .error .invalidSyntax
    else validateCriteria crit
  | _ => .error .invalidSyntax

/-- `Guide.validate`, base_schema.py:1350-1358 -/
def validateGuide (s : Str) : Except Err Unit :=
  match pySplit '#' s with
  | [cls, crit] => if guideClass.prefixMatch cls = false then .error .invalidSyntax else validateCriteria crit
  | _ => .error .invalidSyntax

/-! ### Descriptions of schema elements, rfc4512.py:42-150 -/

/-- `(?:SP KEY SP val)` -/
def keyed (key : Str) (val : Rx) : Rx := .cat [sp, .lit key, sp, val]
/-- `(?:SP KEY)` -/
def word (key : Str) : Rx := .cat [sp, .lit key]
/-- what the descriptions start and end with -/
def descriptionRx (id : Rx) (parts : List Rx) : Rx := .cat ([.lit ['('], wsp, id] ++ parts ++ [extensions, wsp, .lit [')']])

/-- rfc4512.py:44-55 -/
def objectClassRx : Rx := descriptionRx numericoid
  [.opt (keyed (str "NAME") qdescrs), .opt (keyed (str "DESC") qdstring), .opt (word (str "OBSOLETE")), .opt (keyed (str "SUP") oids),
   .opt (.cat [sp, .any ([str "ABSTRACT", str "STRUCTURAL", str "AUXILIARY"].map .lit)]), .opt (keyed (str "MUST") oids), .opt (keyed (str "MAY") oids)]
/-- rfc4512.py:57-73 -/
def attributeTypeRx : Rx := descriptionRx numericoid
  [.opt (keyed (str "NAME") qdescrs), .opt (keyed (str "DESC") qdstring), .opt (word (str "OBSOLETE")), .opt (keyed (str "SUP") oid), .opt (keyed (str "EQUALITY") oid),
   .opt (keyed (str "ORDERING") oid), .opt (keyed (str "SUBSTR") oid), .opt (keyed (str "SYNTAX") noidlen), .opt (word (str "SINGLE-VALUE")), .opt (word (str "COLLECTIVE")),
   .opt (word (str "NO-USER-MODIFICATION")),
   .opt (keyed (str "USAGE") (.any ([str "userApplications", str "directoryOperation", str "distributedOperation", str "dSAOperation"].map .lit)))]
/-- rfc4512.py:75-83 -/
def matchingRuleRx : Rx := descriptionRx numericoid
  [.opt (keyed (str "NAME") qdescrs), .opt (keyed (str "DESC") qdstring), .opt (word (str "OBSOLETE")), keyed (str "SYNTAX") oids]
/-- rfc4512.py:85-93 -/
def matchingRuleUseRx : Rx := descriptionRx numericoid
  [.opt (keyed (str "NAME") qdescrs), .opt (keyed (str "DESC") qdstring), .opt (word (str "OBSOLETE")), keyed (str "APPLIES") oids]
/-- rfc4512.py:95-100 -/
def syntaxRx : Rx := descriptionRx numericoid [.opt (keyed (str "DESC") qdstring)]
/-- rfc4512.py:102-112: `OBSOLETE` must be followed by a space of its own -/
def ditContentRx : Rx := descriptionRx numericoid
  [.opt (keyed (str "NAME") qdescrs), .opt (keyed (str "DESC") qdstring), .opt (.cat [sp, .lit (str "OBSOLETE"), sp]), .opt (keyed (str "AUX") oids), .opt (keyed (str "MUST") oids),
   .opt (keyed (str "NOT") oids)]
/-- rfc4512.py:114-116 -/
def ruleid : Rx := .plus (.cls digit)
def ruleids : Rx := .alt ruleid (.cat [.lit ['('], wsp, .cat [ruleid, .star (.cat [sp, ruleid])], wsp, .lit [')']])
/-- rfc4512.py:118-127 -/
def ditStructureRx : Rx := descriptionRx ruleid
  [.opt (keyed (str "NAME") qdescrs), .opt (keyed (str "DESC") qdstring), .opt (.cat [sp, .lit (str "OBSOLETE"), sp]), keyed (str "FORM") oid, .opt (keyed (str "SUP") ruleids)]
/-- rfc4512.py:129-139 -/
def nameFormRx : Rx := descriptionRx numericoid
  [.opt (keyed (str "NAME") qdescrs), .opt (keyed (str "DESC") qdstring), .opt (word (str "OBSOLETE")), keyed (str "OC") oid, keyed (str "MUST") oids, .opt (keyed (str "MAY") oids)]

/-! ### Syntax rules by OID -/

/-- How a syntax rule checks a `str`. -/
inductive SyntaxRule where
  | rule (r : Syntax.Rule)
  | time | guide | enhancedGuide | triple
  /-- Binary, Certificate, JPEG (base_schema.py:1087-1101, 1370-1380): only `bytes` are accepted -/
  | bytesOnly

/-- `rule.validate(value)` for a `str` -/
def SyntaxRule.validate : SyntaxRule → Str → Except Err Unit
  | .rule r, s => r.validate s
  | .time, s => validateGT s
  | .guide, s => validateGuide s
  | .enhancedGuide, s => validateEnhancedGuide s
  | .triple, s => if Netgroups.isTriple s then .ok () else .error .invalidSyntax
  | .bytesOnly, _ => .error .invalidSyntax

/-- The OIDs of the classes, base_schema.py:1087-1477: `1.3.6.1.4.1.1466.115.121.1.` and a number -/
def ldapSyntax (n : Str) : Str := str "1.3.6.1.4.1.1466.115.121.1." ++ n

/-- `_oid_syntax_rules` after `base_schema` was required, base_schema.py:1087-1477 -/
def baseSyntaxes : PDict Str SyntaxRule :=
  [(ldapSyntax (str "5"), .bytesOnly), (ldapSyntax (str "8"), .bytesOnly), (ldapSyntax (str "3"), .rule (.anchored attributeTypeRx)), (ldapSyntax (str "6"), .rule ruleBitString),
   (ldapSyntax (str "7"), .rule .boolean), (ldapSyntax (str "11"), .rule ruleCountryString), (ldapSyntax (str "14"), .rule ruleDeliveryMethod), (ldapSyntax (str "15"), .rule .directoryString),
   (ldapSyntax (str "16"), .rule (.anchored ditContentRx)), (ldapSyntax (str "17"), .rule (.anchored ditStructureRx)), (ldapSyntax (str "12"), .rule ruleDN), (ldapSyntax (str "21"), .enhancedGuide),
   (ldapSyntax (str "22"), .rule .fax), (ldapSyntax (str "23"), .rule .anything), (ldapSyntax (str "24"), .time), (ldapSyntax (str "25"), .guide), (ldapSyntax (str "26"), .rule ruleIA5String),
   (ldapSyntax (str "27"), .rule ruleInteger), (ldapSyntax (str "28"), .bytesOnly), (ldapSyntax (str "54"), .rule (.anchored syntaxRx)), (ldapSyntax (str "30"), .rule (.anchored matchingRuleRx)),
   (ldapSyntax (str "31"), .rule (.anchored matchingRuleUseRx)), (ldapSyntax (str "34"), .rule ruleNameAndOptionalUID), (ldapSyntax (str "35"), .rule (.anchored nameFormRx)),
   (ldapSyntax (str "36"), .rule ruleNumericString), (ldapSyntax (str "37"), .rule (.anchored objectClassRx)), (ldapSyntax (str "40"), .rule .anything), (ldapSyntax (str "38"), .rule ruleOID),
   (ldapSyntax (str "39"), .rule ruleOtherMailbox), (ldapSyntax (str "41"), .rule rulePostalAddress), (ldapSyntax (str "44"), .rule rulePrintableString),
   (ldapSyntax (str "58"), .rule ruleSubstringAssertion), (ldapSyntax (str "50"), .rule .telephone), (ldapSyntax (str "51"), .rule ruleTeletex), (ldapSyntax (str "52"), .rule ruleTelex)]

/-- netgroups.py:118-121 -/
def netgroupSyntaxes : PDict Str SyntaxRule := [(str "1.3.6.1.1.1.0.0", .triple)]

/-- `get_syntax_rule(oid)`, rules.py:14-18: `KeyError` for an unknown OID -/
def getSyntaxRule (tbl : PDict Str SyntaxRule) (oid : Str) : Except Err SyntaxRule :=
  match tbl.get? oid with
  | some r => .ok r
  | none => .error .keyError

/-! ### Matching rules -/

/-- How an equality rule compares: prepared values by `==` (rules.py:147-176), distinguished names (base_schema.py:1524-1559), or generalized times (1561-1569) -/
inductive EqRule where
  | prep (methods : List PrepMethod)
  | dn
  | time
  deriving DecidableEq

/-- `prepare`, rules.py:149-153 -/
def EqRule.prepare (U : Uni) : EqRule → Str → Except Err Str
  | .prep ms, s => Laurelin.prepare U ms s
  | _, s => .ok s

/-- `do_match`, rules.py:171-176; base_schema.py:1543-1559, 1566-1569 (its arguments are the prepared values, which are the values) -/
def EqRule.doMatch : EqRule → Str → Str → Except Err Bool
  | .prep _, a, b => .ok (decide (a = b))
  | .dn, a, b => dnMatch a b
  | .time, _, b => match validateGT b with
    | .error e => .error e
    | .ok () => .ok true

/-- a matching rule class -/
structure MatchingRule where
  oid : Str
  name : Str
  syntaxOid : Str
  eq : EqRule
  deriving DecidableEq

/-- base_schema.py:1481-1623, in order -/
def baseMatchingRules : List MatchingRule :=
  [⟨str "2.5.13.16", str "bitStringMatch", ldapSyntax (str "6"), .prep []⟩,
   ⟨str "2.5.13.13", str "booleanMatch", ldapSyntax (str "7"), .prep []⟩,
   ⟨str "1.3.6.1.4.1.1466.109.114.1", str "caseExactIA5Match", ldapSyntax (str "26"), .prep caseExactPrep⟩,
   ⟨str "2.5.13.5", str "caseExactMatch", ldapSyntax (str "15"), .prep caseExactPrep⟩,
   ⟨str "1.3.6.1.4.1.1466.109.114.2", str "caseIgnoreIA5Match", ldapSyntax (str "26"), .prep caseIgnorePrep⟩,
   ⟨str "2.5.13.11", str "caseIgnoreListMatch", ldapSyntax (str "41"), .prep caseIgnorePrep⟩,
   ⟨str "2.5.13.2", str "caseIgnoreMatch", ldapSyntax (str "15"), .prep caseIgnorePrep⟩,
   ⟨str "2.5.13.31", str "directoryStringFirstComponentMatch", ldapSyntax (str "15"), .prep []⟩,
   ⟨str "2.5.13.1", str "distinguishedNameMatch", ldapSyntax (str "12"), .dn⟩,
   ⟨str "2.5.13.27", str "generalizedTimeMatch", ldapSyntax (str "24"), .time⟩,
   ⟨str "2.5.13.29", str "integerFirstComponentMatch", ldapSyntax (str "27"), .prep []⟩,
   ⟨str "2.5.13.14", str "integerMatch", ldapSyntax (str "27"), .prep []⟩,
   ⟨str "2.5.13.8", str "numericStringMatch", ldapSyntax (str "36"), .prep numericPrep⟩,
   ⟨str "2.5.13.30", str "objectIdentifierFirstComponentMatch", ldapSyntax (str "38"), .prep []⟩,
   ⟨str "2.5.13.0", str "objectIdentifierMatch", ldapSyntax (str "38"), .prep []⟩,
   ⟨str "2.5.13.17", str "octetStringMatch", ldapSyntax (str "40"), .prep []⟩,
   ⟨str "2.5.13.20", str "telephoneNumberMatch", ldapSyntax (str "50"), .prep telephonePrep⟩,
   ⟨str "2.5.13.23", str "uniqueMemberMatch", ldapSyntax (str "34"), .prep []⟩]

/-- `get_matching_rule(ident)`, rules.py:92-103: by OID, or by name ignoring case; `KeyError` when there is none -/
def getMatchingRule (lower : Str → Str) (tbl : List MatchingRule) (ident : Str) : Except Err MatchingRule :=
  match Schema.numeric ident with
  | .error e => .error e
  | .ok true => match tbl.find? (fun r => r.oid = ident) with
    | some r => .ok r
    | none => .error .keyError
  | .ok false => match tbl.find? (fun r => lower r.name = lower ident) with
    | some r => .ok r
    | none => .error .keyError

/-- `rule.match(a, b)`, rules.py:159-165 -/
def EqRule.match_ (U : Uni) (r : EqRule) (a b : Str) : Except Err Bool := do
  let a ← r.prepare U a
  let b ← r.prepare U b
  r.doMatch a b

end Laurelin.BaseRules
