import Verif.Model.Regex
import Verif.Model.Utils
import Verif.Model.Prep
/-!
The syntax rules of laurelin/extensions/base_schema.py:1087-1477, with the expressions of laurelin/ldap/rfc4512.py and
laurelin/ldap/rfc4514.py they are built from.

Values are `str`. Not modelled: the rules for binary values (Binary, Certificate, JPEG, Fax, Octet String), and the
return values of `validate`.
-/
namespace Laurelin.Syntax
open Laurelin

/-- the class `[a-b]` -/
def range (a b : Char) (c : Char) : Bool := decide (a ≤ c) && decide (c ≤ b)
/-- rfc4512.py:8 `ALPHA` -/
def alpha (c : Char) : Bool := range 'A' 'Z' c || range 'a' 'z' c
/-- rfc4512.py:9 `DIGIT` -/
def digit (c : Char) : Bool := range '0' '9' c
/-- rfc4512.py:10 `HEX` -/
def hex (c : Char) : Bool := range '0' '9' c || range 'A' 'F' c || range 'a' 'f' c
/-- rfc4512.py:12-13 -/
def sp : Rx := .plus (.cls (fun c => c == ' '))
def wsp : Rx := .star (.cls (fun c => c == ' '))
/-- rfc4512.py:15 -/
def keychar (c : Char) : Bool := alpha c || digit c || c == '-'
/-- rfc4512.py:16, 19: `keystring` and `descr` -/
def descr : Rx := .cat [.cls alpha, .star (.cls keychar)]
/-- rfc4512.py:18 -/
def numericoid : Rx := .cat [.plus (.cls digit), .plus (.cat [.lit ['.'], .plus (.cls digit)])]
/-- rfc4512.py:20 -/
def oid : Rx := .alt descr numericoid

/-- rfc4514.py:12-13 -/
def hexpair : Rx := .cat [.cls hex, .cls hex]
def hexstring : Rx := .cat [.lit ['#'], .plus hexpair]
/-- rfc4514.py:15: the class `"+,;<>\0\\` -/
def escaped (c : Char) : Bool := c == '"' || c == '+' || c == ',' || c == ';' || c == '<' || c == '>' || c == '\x00' || c == '\\'
/-- rfc4514.py:16 -/
def special (c : Char) : Bool := escaped c || c == ' ' || c == '#' || c == '='
/-- rfc4514.py:18 -/
def pair : Rx := .cat [.lit ['\\'], .alt (.cls special) hexpair]
/-- rfc4514.py:20-22 -/
def stringchar : Rx := .cls (fun c => !escaped c)
def leadchar : Rx := .cls (fun c => !special c)
def trailchar : Rx := .cls (fun c => !(escaped c || c == ' '))
/-- rfc4514.py:24-28 -/
def string : Rx := .cat [.alt leadchar pair, .star (.alt stringchar pair), .opt (.alt trailchar pair)]
/-- rfc4514.py:30-35 -/
def attributeValue : Rx := .alt string hexstring
def attributeType : Rx := .alt descr numericoid
def attributeTypeAndValue : Rx := .cat [attributeType, .lit ['='], attributeValue]
def relativeDistinguishedName : Rx := .cat [attributeTypeAndValue, .star (.cat [.lit ['+'], attributeTypeAndValue])]
def distinguishedName : Rx := .cat [relativeDistinguishedName, .star (.cat [.lit [','], relativeDistinguishedName])]

/-- base_schema.py:27 `_PrintableCharacter` -/
def printable (c : Char) : Bool :=
  alpha c || digit c || c == '\'' || c == '(' || c == ')' || c == '+' || c == ',' || c == '.' || c == '=' || c == '/' ||
  c == ':' || c == '?' || c == ' ' || c == '-'
/-- base_schema.py:28 -/
def printableString : Rx := .plus (.cls printable)
/-- base_schema.py:30 -/
def ia5String : Rx := .star (.cls (fun c => decide (c.toNat ≤ 0x7f)))
/-- base_schema.py:31 -/
def bitString : Rx := .cat [.lit ['\''], .star (.cls (fun c => c == '0' || c == '1')), .lit (str "'B")]

/-- one hexadecimal digit of `hex(ord(c))` (lower case) -/
def hexDigit (n : Nat) : Char := if n < 10 then Char.ofNat (48 + n) else Char.ofNat (87 + n)
/-- `_any_case`, utils.py:58-64: a letter in either case; digits are left alone -/
def anyCase (d : Char) : Rx := .cls (fun x => x == d || x == d.toUpper)
/-- `\\` followed by the two hexadecimal digits of the character, utils.py:90-107 -/
def hexEscape (c : Char) : Rx := .cat [.lit ['\\'], anyCase (hexDigit (c.toNat / 16)), anyCase (hexDigit (c.toNat % 16))]
/-- `escaped_regex`, utils.py:67-121, for characters below U+0100 that mean nothing in a character class. The code goes through
the characters in the order of a `set`; the order does not matter. -/
def escapedRegex (chars : List Char) : Rx := .any (chars.map hexEscape ++ [.cls (fun c => !chars.contains c)])

/-- base_schema.py:1136-1137 `DeliveryMethod`; `\s` is Python's Unicode white space -/
def pdmWords : List Str :=
  [str "any", str "mhs", str "physical", str "telex", str "teletext", str "g3fax", str "g4fax", str "ia5", str "videotext", str "telephone"]
def pdm : Rx := .any (pdmWords.map .lit)
def deliveryMethod : Rx :=
  .cat [pdm, .star (.cat [.star (.cls (inClass pySpace)), .lit ['$'], .star (.cls (inClass pySpace)), pdm])]

/-- base_schema.py:1368 -/
def integer : Rx := .cat [.opt (.lit ['-']), .cls (range '1' '9'), .star (.cls digit)]
/-- base_schema.py:1410 -/
def numericString : Rx := .plus (.cls (fun c => digit c || c == ' '))
/-- base_schema.py:1433 -/
def otherMailbox : Rx := .cat [printableString, .lit ['$'], ia5String]
/-- base_schema.py:1439-1441 -/
def postalLine : Rx := .plus (escapedRegex ['\\', '$'])
def postalAddress : Rx := .cat [postalLine, .star (.cat [.lit ['$'], postalLine])]
/-- base_schema.py:1452-1454 -/
def substring : Rx := .plus (escapedRegex ['\\', '*'])
def substringAssertion : Rx := .cat [.opt substring, .lit ['*'], .star (.cat [substring, .lit ['*']]), .opt substring]
/-- base_schema.py:1468-1472 -/
def ttxValue : Rx := .star (.any [.cls (fun c => decide (c.toNat ≤ 0x23)), .lit (str "\\24"), .lit (str "\\5C")])
def ttxKey : Rx := .any ([str "graphic", str "control", str "misc", str "page", str "private"].map .lit)
def teletex : Rx := .cat [printableString, .star (.cat [.lit ['$'], ttxKey, .lit [':'], ttxValue])]
/-- base_schema.py:1477 -/
def telex : Rx := .cat [printableString, .lit ['$'], printableString, .lit ['$'], printableString]
/-- base_schema.py:1131 -/
def countryString : Rx := .rep (.cls printable) 2

/-- How a value is checked. -/
inductive Rule where
  | anchored (r : Rx)      -- RegexSyntaxRule with `^…$`
  | prefix_ (r : Rx)       -- RegexSyntaxRule without the closing anchor
  | boolean | directoryString | fax | telephone | anything

/-- base_schema.py:1270-1278 -/
def faxParameters : List Str :=
  [str "twoDimensional", str "fineResolution", str "unlimitedLength", str "b4Length", str "a3Width", str "b4Width", str "uncompressed"]

/-- base_schema.py:1280-1286; `s.split('$')` is never empty -/
def validateFax (s : Str) : Except Err Unit :=
  match pySplit '$' s with
  | [] => .error .indexError
  | phone :: params =>
    if !validatePhone phone then .error .invalidSyntax
    else if params.all (fun p => faxParameters.contains p) then .ok () else .error .invalidSyntax

/-- `validate`: RegexSyntaxRule.validate (rules.py:68-80), Boolean (base_schema.py:1124-1126), DirectoryString (1143-1145),
FacsimilieTelephoneNumber (1280-1286), TelephoneNumber (1460-1462), OctetString (1421-1423) -/
def Rule.validate : Rule → Str → Except Err Unit
  | .anchored r, s => if r.anchored s then .ok () else .error .invalidSyntax
  | .prefix_ r, s => if r.prefixMatch s then .ok () else .error .invalidSyntax
  | .boolean, s => if s ≠ str "TRUE" ∧ s ≠ str "FALSE" then .error .invalidSyntax else .ok ()
  | .directoryString, s => if s.length = 0 then .error .invalidSyntax else .ok ()
  | .fax, s => validateFax s
  | .telephone, s => if validatePhone s then .ok () else .error .invalidSyntax
  | .anything, _ => .ok ()

/-! The rules -/
/-- base_schema.py:1115-1118 -/
def ruleBitString : Rule := .anchored bitString
/-- base_schema.py:1128-1131 -/
def ruleCountryString : Rule := .anchored countryString
/-- base_schema.py:1133-1137 -/
def ruleDeliveryMethod : Rule := .anchored deliveryMethod
/-- base_schema.py:1157-1160 -/
def ruleDN : Rule := .anchored distinguishedName
/-- base_schema.py:1360-1363 -/
def ruleIA5String : Rule := .anchored ia5String
/-- base_schema.py:1365-1368 -/
def ruleInteger : Rule := .anchored integer
/-- base_schema.py:1397-1400 -/
def ruleNameAndOptionalUID : Rule := .prefix_ (.cat [distinguishedName, .opt (.cat [.lit ['#'], bitString])])
/-- base_schema.py:1407-1410 -/
def ruleNumericString : Rule := .anchored numericString
/-- base_schema.py:1425-1428 -/
def ruleOID : Rule := .anchored oid
/-- base_schema.py:1430-1433 -/
def ruleOtherMailbox : Rule := .anchored otherMailbox
/-- base_schema.py:1435-1441 -/
def rulePostalAddress : Rule := .anchored postalAddress
/-- base_schema.py:1443-1446 -/
def rulePrintableString : Rule := .anchored printableString
/-- base_schema.py:1448-1454 -/
def ruleSubstringAssertion : Rule := .prefix_ substringAssertion
/-- base_schema.py:1464-1472 -/
def ruleTeletex : Rule := .anchored teletex
/-- base_schema.py:1474-1477 -/
def ruleTelex : Rule := .anchored telex

/-! ### Generalized Time -/

/-- two digits, with their value -/
def take2 : Str → Option (Nat × Str)
  | a :: b :: t => if digit a && digit b then some (10 * (a.toNat - 48) + (b.toNat - 48), t) else none
  | _ => none

/-- `([0-9]{2})?` -/
def take2? (s : Str) : Option Nat × Str :=
  match take2 s with
  | some (n, t) => (some n, t)
  | none => (none, s)

/-- `([.,][0-9]+)?`: what follows it -/
def skipFraction : Str → Str
  | c :: d :: t => if (c == '.' || c == ',') && digit d then t.dropWhile digit else c :: d :: t
  | s => s

/-- the groups 2, 3, 4, 5, 6, 9, 10 of the match; `tz` is `none` for `Z` -/
structure GT where
  month : Nat
  day : Nat
  hour : Nat
  minute : Option Nat
  second : Option Nat
  tz : Option (Nat × Option Nat)

/-- `(Z|[+-]([0-9]{2})([0-9]{2})?)$` -/
def takeZone : Str → Option (Option (Nat × Option Nat))
  | c :: t =>
    if c = 'Z' then if t = [] ∨ t = ['\n'] then some none else none
    else if c = '+' ∨ c = '-' then
      match take2 t with
      | none => none
      | some (h, t) =>
        let m := take2? t
        if m.2 = [] ∨ m.2 = ['\n'] then some (some (h, m.1)) else none
    else none
  | [] => none

/-- `self.compiled_re.match(s)`, base_schema.py:1300-1301. The parts of the expression cannot trade characters (what follows the
digits starts with none), so reading greedily finds the match if there is one. -/
def gtMatch (s : Str) : Option GT := do
  let (_, s) ← take2 s
  let (_, s) ← take2 s
  let (month, s) ← take2 s
  let (day, s) ← take2 s
  let (hour, s) ← take2 s
  let m := take2? s
  let se := take2? m.2
  let z ← takeZone (skipFraction se.2)
  pure ⟨month, day, hour, m.1, se.1, z⟩

/-- `GeneralizedTime.validate`, base_schema.py:1303-1344; `n < 0` is impossible after two digits -/
def validateGT (s : Str) : Except Err Unit :=
  match gtMatch s with
  | none => .error .invalidSyntax
  | some g =>
    if g.month < 1 ∨ g.month > 12 then .error .invalidSyntax
    else if g.day < 1 ∨ g.day > 31 then .error .invalidSyntax
    else if g.hour > 23 then .error .invalidSyntax
    else if g.minute.any (fun m => decide (m > 59)) then .error .invalidSyntax
    else if g.second.any (fun s => decide (s > 60)) then .error .invalidSyntax
    else match g.tz with
      | none => .ok ()
      | some (h, m) =>
        if h > 23 then .error .invalidSyntax
        else if m.any (fun m => decide (m > 59)) then .error .invalidSyntax
        else .ok ()

end Laurelin.Syntax
