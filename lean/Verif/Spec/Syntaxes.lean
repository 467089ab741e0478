import Verif.Spec.Rfc4517
import Verif.Spec.Descriptions
import Verif.Spec.Netgroups
/-!
For each LDAP syntax of RFC 4517 (Appendix A), by the last number of its OID, the texts accepted for it: the language of the RFC where possible, with what is different put on top of it.
The two guide syntaxes, 21 and 25, are in `Spec/Guide`.
-/
namespace Laurelin.Spec.Syntaxes
open Laurelin Abnf Rfc4517

/-- OIDs with leading zeroes -/
def looseOid : Language := alt descr (cat (many1 DIGIT) (many1 (cat (lit ['.']) (many1 DIGIT))))
/-- a backslash may also stand before NUL -/
def loosePair : Language := alt pair (lit ['\\', '\x00'])
/-- not empty, not beginning with `=`; spaces are allowed at the end -/
def looseValue : Language :=
  alt hexstring (cat (alt (chr (fun c => c != '\x00' && !(str " \"#+,;<>\\=").contains c)) loosePair) (many (alt stringchar loosePair)))
/-- names: not empty -/
def looseDn : Language := dnOf looseOid looseValue
/-- the words, with `teletext` for `teletex` and `videotext` for `videotex` -/
def deliveryWord : Language :=
  oneOf [str "any", str "mhs", str "physical", str "telex", str "teletext", str "g3fax", str "g4fax", str "ia5", str "videotext", str "telephone"]
/-- between two words any white space of Unicode -/
def delivery (space : Char → Bool) : Language := cat deliveryWord (many (cats [many (chr space), lit ['$'], many (chr space), deliveryWord]))
/-- values of characters up to `#` only, `\24`, `\5C` -/
def terminal : Language :=
  cat printableString (many (cats [lit ['$'], ttxKey, lit [':'], many (alt (chr (fun c => decide (c.toNat ≤ 0x23))) (alt (lit (str "\\24")) (lit (str "\\5C"))))]))
/-- what only begins with the language -/
def beginning (l : Language) : Language := fun s => ∃ u v, s = u ++ v ∧ l u
/-- a telephone number: ignoring everything but digits and plus signs, an optional plus and 7 to 15 digits -/
def phone : Language := fun s => ∃ d : Str, (∀ c ∈ d, '0' ≤ c ∧ c ≤ '9') ∧ 7 ≤ d.length ∧ d.length ≤ 15 ∧
  (s.filter (fun c => ('0' ≤ c && c ≤ '9') || c == '+') = d ∨ s.filter (fun c => ('0' ≤ c && c ≤ '9') || c == '+') = '+' :: d)
/-- texts are refused: the values are binary -/
def binary : Language := fun _ => False

/-- syntax and what is accepted for it -/
def languages (space : Char → Bool) : List (Str × Language) := [
  (str "3", orNewline (Descriptions.attributeTypes Descriptions.accepted)),
  (str "5", binary),
  (str "6", orNewline bitString),
  (str "7", boolean),
  (str "8", binary),
  (str "11", orNewline countryString),
  (str "12", orNewline looseDn),
  (str "14", orNewline (delivery space)),
  (str "15", directoryString),
  (str "16", orNewline (Descriptions.contentRules Descriptions.accepted)),
  (str "17", orNewline (Descriptions.structureRules Descriptions.accepted)),
  (str "22", fax (fun p => phone p ∧ '$' ∉ p)),
  (str "23", fun _ => True),
  (str "24", orNewline generalizedTime),
  (str "26", ia5String),
  (str "27", orNewline (fun s => integer s ∧ s ≠ ['0'])),
  (str "28", binary),
  (str "30", orNewline (Descriptions.matchingRules Descriptions.accepted)),
  (str "31", orNewline (Descriptions.matchingRuleUses Descriptions.accepted)),
  (str "34", beginning (cat looseDn (opt (cat (lit ['#']) bitString)))),
  (str "35", orNewline (Descriptions.nameForms Descriptions.accepted)),
  (str "36", orNewline numericString),
  (str "37", orNewline (Descriptions.objectClasses Descriptions.accepted)),
  (str "38", orNewline looseOid),
  (str "39", orNewline otherMailbox),
  (str "40", fun _ => True),
  (str "41", orNewline postalAddress),
  (str "44", orNewline printableString),
  (str "50", phone),
  (str "51", orNewline terminal),
  (str "52", orNewline telex),
  (str "54", orNewline (Descriptions.ldapSyntaxes Descriptions.accepted)),
  (str "58", beginning substringAssertion)]

end Laurelin.Spec.Syntaxes
