import Verif.Spec.Abnf
/-!
The productions of RFC 4517 section 3.3 and the parts of RFC 4512 and RFC 4514 they use. Quoted keywords are read
case-sensitively, hexadecimal digits in either case.
-/
namespace Laurelin.Spec.Rfc4517
open Laurelin Spec.Abnf

/-- RFC 4512 1.4: DIGIT, LDIGIT, number (no leading zero) -/
def DIGIT : Language := chr Char.isDigit
def LDIGIT : Language := chr (fun c => c.isDigit && c != '0')
def number : Language := alt DIGIT (cat LDIGIT (many1 DIGIT))
/-- RFC 4512 1.4: descr and numericoid -/
def descr : Language := cat (chr Char.isAlpha) (many (chr (fun c => c.isAlphanum || c == '-')))
def numericoid : Language := cat number (many1 (cat (lit ['.']) number))
/-- 3.3.26 OID -/
def oid : Language := alt descr numericoid

/-- 3.2: PrintableCharacter and PrintableString -/
def printableCharacter (c : Char) : Bool := c.isAlphanum || (str "'()+,-.=/:? ").contains c
def printableString : Language := many1 (chr printableCharacter)
/-- 3.2: IA5String, any characters up to 0x7F -/
def ia5String : Language := many (chr (fun c => decide (c.toNat < 128)))

/-- 3.3.2 Bit String -/
def bitString : Language := cats [lit ['\''], many (chr (fun c => c == '0' || c == '1')), lit ['\''], lit ['B']]
/-- 3.3.3 Boolean -/
def boolean : Language := oneOf [str "TRUE", str "FALSE"]
/-- 3.3.4 Country String -/
def countryString : Language := cat (chr printableCharacter) (chr printableCharacter)
/-- 3.3.5 Delivery Method -/
def pdm : Language := oneOf [str "any", str "mhs", str "physical", str "telex", str "teletex", str "g3fax", str "g4fax", str "ia5",
  str "videotex", str "telephone"]
def WSP : Language := many (lit [' '])
def deliveryMethod : Language := cat pdm (many (cats [WSP, lit ['$'], WSP, pdm]))
/-- 3.3.6 Directory String: one or more characters -/
def directoryString : Language := many1 (chr (fun _ => true))
/-- 3.3.16 Integer -/
def integer : Language := alt (cats [lit ['-'], LDIGIT, many DIGIT]) number
/-- 3.3.23 Numeric String -/
def numericString : Language := many1 (chr (fun c => c.isDigit || c == ' '))
/-- 3.3.27 Other Mailbox -/
def otherMailbox : Language := cats [printableString, lit ['$'], ia5String]
/-- the escapes `\24`, `\2A` and `\5C`, letters in either case -/
def escDollar : Language := lit (str "\\24")
def escStar : Language := cat (lit (str "\\2")) (chr (fun c => c == 'a' || c == 'A'))
def escBackslash : Language := cat (lit (str "\\5")) (chr (fun c => c == 'c' || c == 'C'))
/-- 3.3.28 Postal Address -/
def postalLine : Language := many1 (alt (chr (fun c => c != '\\' && c != '$')) (alt escDollar escBackslash))
def postalAddress : Language := cat postalLine (many (cat (lit ['$']) postalLine))
/-- 3.3.30 Substring Assertion -/
def substring : Language := many1 (alt (chr (fun c => c != '\\' && c != '*')) (alt escStar escBackslash))
def substringAssertion : Language := cats [opt substring, lit ['*'], many (cat substring (lit ['*'])), opt substring]
/-- 3.3.32 Teletex Terminal Identifier -/
def ttxValue : Language := many (alt (chr (fun c => c != '\\' && c != '$')) (alt escDollar escBackslash))
def ttxKey : Language := oneOf [str "graphic", str "control", str "misc", str "page", str "private"]
def teletex : Language := cat printableString (many (cats [lit ['$'], ttxKey, lit [':'], ttxValue]))
/-- 3.3.33 Telex Number -/
def telex : Language := cats [printableString, lit ['$'], printableString, lit ['$'], printableString]

/-- two digits with a value between `lo` and `hi` -/
def num2 (lo hi : Nat) : Language := fun w => ∃ n, lo ≤ n ∧ n ≤ hi ∧ n < 100 ∧ w = [Char.ofNat (48 + n / 10), Char.ofNat (48 + n % 10)]
/-- 3.3.13 Generalized Time -/
def generalizedTime : Language :=
  cats [cats [DIGIT, DIGIT, DIGIT, DIGIT], num2 1 12, num2 1 31, num2 0 23, opt (cat (num2 0 59) (opt (num2 0 60))),
    opt (cat (chr (fun c => c == '.' || c == ',')) (many1 DIGIT)),
    alt (lit ['Z']) (cats [chr (fun c => c == '+' || c == '-'), num2 0 23, opt (num2 0 59)])]

/-- RFC 4514 section 3 -/
def HEX : Language := chr (fun c => (str "0123456789abcdefABCDEF").contains c)
def hexpair : Language := cat HEX HEX
def hexstring : Language := cat (lit ['#']) (many1 hexpair)
def pair : Language := cat (lit ['\\']) (alt (chr (fun c => (str "\\\"+,;<> #=").contains c)) hexpair)
def leadchar : Language := chr (fun c => c != '\x00' && !(str " \"#+,;<>\\").contains c)
def trailchar : Language := chr (fun c => c != '\x00' && !(str " \"+,;<>\\").contains c)
def stringchar : Language := chr (fun c => c != '\x00' && !(str "\"+,;<>\\").contains c)
def string : Language := opt (cat (alt leadchar pair) (opt (cat (many (alt stringchar pair)) (alt trailchar pair))))
def attributeValue : Language := alt string hexstring
/-- names with given attribute types and values -/
def atavOf (type value : Language) : Language := cats [type, lit ['='], value]
def rdnOf (type value : Language) : Language := cat (atavOf type value) (many (cat (lit ['+']) (atavOf type value)))
def dnOf (type value : Language) : Language := cat (rdnOf type value) (many (cat (lit [',']) (rdnOf type value)))
def distinguishedName : Language := opt (dnOf oid attributeValue)

/-- 3.3.11 Facsimile Telephone Number, 3.3.31 Telephone Number, up to what a telephone number is -/
def fax (phone : Language) : Language := cat phone (many (cat (lit ['$'])
  (oneOf [str "twoDimensional", str "fineResolution", str "unlimitedLength", str "b4Length", str "a3Width", str "b4Width", str "uncompressed"])))

/-- A text of the language, possibly followed by one newline. -/
def orNewline (l : Language) : Language := fun s => l s ∨ ∃ w, s = w ++ ['\n'] ∧ l w

end Laurelin.Spec.Rfc4517
