import Verif.Spec.Rfc4512
/-!
The eight kinds of schema descriptions (RFC 4512 4.1.1-4.1.8) as sets of texts. The separators are spaces. As in `Spec/Rfc4512` there is at most one extension, no empty list, and keywords are in
upper case. The readings differ in: the numbers (RFC 4512: no leading zero), what separates the parts of an extension (RFC 4512: any number of spaces), what follows `OBSOLETE` in DIT rules
(RFC 4512: nothing of its own), and what the syntax of a matching rule may be (RFC 4512: one numeric OID).
-/
namespace Laurelin.Spec.Descriptions
open Abnf Rfc4512

/-- a reading of the grammar -/
structure Reading where
  number : Language
  extensionSpace : Language
  afterObsolete : Language
  ruleSyntax : Language

variable (g : Reading)

/-- its separators and numbers -/
def Reading.lex : Lex := ⟨fun c => c == ' ', g.number⟩

/-- one or more names -/
def names : Language := fun s => ∃ l, qdescrs g.lex l s
/-- one or more identifiers -/
def identifiers : Language := fun s => ∃ l, oids g.lex l s
/-- an OID with or without a length -/
def sized : Language := fun s => ∃ p, noidlen g.lex p s
/-- a keyword with a value, a keyword -/
def keyed (key : Str) (val : Language) : Language := cats [SP g.lex, lit key, SP g.lex, val]
def word (key : Str) : Language := cat (SP g.lex) (lit key)
/-- an extension -/
def extended : Language :=
  opt (cats [g.extensionSpace, lit (str "X-"), many1 (chr (fun c => isAlpha c || c == '_' || c == '-')), g.extensionSpace, qdstrings g.lex])
def description (id : Language) (parts : List Language) : Language :=
  cats ([lit ['('], WSP g.lex, id] ++ parts ++ [extended g, WSP g.lex, lit [')']])
def nameDesc : List Language := [opt (keyed g (str "NAME") (names g)), opt (keyed g (str "DESC") qdstring)]

/-- 4.1.1 -/
def objectClasses : Language := description g (numericoid g.lex) (nameDesc g ++
  [opt (word g (str "OBSOLETE")), opt (keyed g (str "SUP") (identifiers g)), opt (cat (SP g.lex) (oneOf kinds)), opt (keyed g (str "MUST") (identifiers g)),
   opt (keyed g (str "MAY") (identifiers g))])
/-- 4.1.2 -/
def attributeTypes : Language := description g (numericoid g.lex) (nameDesc g ++
  [opt (word g (str "OBSOLETE")), opt (keyed g (str "SUP") (oid g.lex)), opt (keyed g (str "EQUALITY") (oid g.lex)), opt (keyed g (str "ORDERING") (oid g.lex)),
   opt (keyed g (str "SUBSTR") (oid g.lex)), opt (keyed g (str "SYNTAX") (sized g)), opt (word g (str "SINGLE-VALUE")), opt (word g (str "COLLECTIVE")),
   opt (word g (str "NO-USER-MODIFICATION")), opt (keyed g (str "USAGE") (oneOf usages))])
/-- 4.1.3 -/
def matchingRules : Language := description g (numericoid g.lex) (nameDesc g ++ [opt (word g (str "OBSOLETE")), keyed g (str "SYNTAX") g.ruleSyntax])
/-- 4.1.4 -/
def matchingRuleUses : Language := description g (numericoid g.lex) (nameDesc g ++ [opt (word g (str "OBSOLETE")), keyed g (str "APPLIES") (identifiers g)])
/-- 4.1.5 -/
def ldapSyntaxes : Language := description g (numericoid g.lex) [opt (keyed g (str "DESC") qdstring)]
/-- 4.1.6, without `MAY`, which the code does not know -/
def contentRules : Language := description g (numericoid g.lex) (nameDesc g ++
  [opt (cat (word g (str "OBSOLETE")) g.afterObsolete), opt (keyed g (str "AUX") (identifiers g)), opt (keyed g (str "MUST") (identifiers g)), opt (keyed g (str "NOT") (identifiers g))])
/-- 4.1.7.1; a rule identifier is a number -/
def structureRules : Language := description g g.number (nameDesc g ++
  [opt (cat (word g (str "OBSOLETE")) g.afterObsolete), keyed g (str "FORM") (oid g.lex),
   opt (keyed g (str "SUP") (alt g.number (cats [lit ['('], WSP g.lex, g.number, many (cat (SP g.lex) g.number), WSP g.lex, lit [')']])))])
/-- 4.1.7.2 -/
def nameForms : Language := description g (numericoid g.lex) (nameDesc g ++
  [opt (word g (str "OBSOLETE")), keyed g (str "OC") (oid g.lex), keyed g (str "MUST") (identifiers g), opt (keyed g (str "MAY") (identifiers g))])

/-- what is accepted -/
def accepted : Reading := ⟨looseNumber, lit [' '], many1 (lit [' ']), fun s => ∃ l, oids ⟨fun c => c == ' ', looseNumber⟩ l s⟩
/-- RFC 4512 -/
def rfc : Reading := ⟨strictNumber, many1 (lit [' ']), lit [], numericoid ⟨fun c => c == ' ', strictNumber⟩⟩
/-- RFC 4512 where single spaces separate the parts of an extension -/
def rfcSingle : Reading := { rfc with extensionSpace := lit [' '] }

end Laurelin.Spec.Descriptions
