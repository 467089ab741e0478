import Verif.Spec.Abnf
/-!
Schema descriptions (RFC 4512 4.1.1 and 4.1.2): what a description says, and the texts that say it.

Two readings of the grammar share the definitions: the one of the RFC, with any whitespace as separator, and the looser one that the code applies
to a text whose whitespace has been collapsed. They differ in `Lex`. Both allow at most one extension and no empty list
(RFC 4512 allows several extensions and `NAME ( )`); keywords are in upper case.
-/
namespace Laurelin.Spec.Rfc4512
open Abnf

/-- What the grammar is parametrised by: the separator characters, and the decimal numbers. -/
structure Lex where
  ws : Char → Bool
  number : Language

def isDigit (c : Char) : Bool := '0' ≤ c && c ≤ '9'
def isAlpha (c : Char) : Bool := ('A' ≤ c && c ≤ 'Z') || ('a' ≤ c && c ≤ 'z')

/-- the numbers of RFC 4512 1.4: no leading zero -/
def strictNumber : Language :=
  alt (chr isDigit) (cat (chr (fun c => '1' ≤ c && c ≤ '9')) (many1 (chr isDigit)))
/-- any decimal digits -/
def looseNumber : Language := many1 (chr isDigit)

/-- the value of a decimal number -/
def decimal (s : Str) : Nat := s.foldl (fun n c => 10 * n + (c.toNat - 48)) 0

variable (x : Lex)

/-- SP and WSP of RFC 4512 1.4 -/
def SP : Language := many1 (chr x.ws)
def WSP : Language := many (chr x.ws)

/-- RFC 4512 1.4 -/
def keystring : Language := cat (chr isAlpha) (many (chr (fun c => isAlpha c || isDigit c || c == '-')))
def numericoid : Language := cat x.number (many1 (cat (lit ['.']) x.number))
def oid : Language := alt keystring (numericoid x)

/-- RFC 4512 4.1: dstring, without the quotes -/
def dstring : Language :=
  many1 (alt (lit (str "\\27")) (alt (cat (lit (str "\\5")) (chr (fun c => c == 'C' || c == 'c'))) (chr (fun c => !(c == '\'' || c == '\\')))))
def qdstring : Language := cats [lit ['\''], dstring, lit ['\'']]
def qdstrings : Language :=
  alt qdstring (cats [lit ['('], WSP x, qdstring, many (cat (SP x) qdstring), WSP x, lit [')']])
/-- at most one extension -/
def extension : Language :=
  opt (cats [SP x, lit (str "X-"), many1 (chr (fun c => isAlpha c || c == '_' || c == '-')), SP x, qdstrings x])

/-- The text is exactly this one, and it is in the language. -/
def exactly (w : Str) (L : Language) : Language := fun s => s = w ∧ L w

/-- a quoted name -/
def qdescr (n : Str) : Language := cats [lit ['\''], exactly n keystring, lit ['\'']]

/-- names after the first in a list: each after SP -/
def moreNames : List Str → Language
  | [] => lit []
  | n :: l => cats [SP x, qdescr n, moreNames l]

/-- qdescrs: the texts that give these names -/
def qdescrs : List Str → Language
  | [] => fun _ => False
  | n :: l => alt (fun s => l = [] ∧ qdescr n s) (cats [lit ['('], WSP x, qdescr n, moreNames x l, WSP x, lit [')']])

/-- identifiers after the first in a list: each after `$` -/
def moreOids : List Str → Language
  | [] => lit []
  | o :: l => cats [WSP x, lit ['$'], WSP x, exactly o (oid x), moreOids l]

/-- oids: the texts that give these identifiers -/
def oids : List Str → Language
  | [] => fun _ => False
  | o :: l => alt (fun s => l = [] ∧ exactly o (oid x) s) (cats [lit ['('], WSP x, exactly o (oid x), moreOids x l, WSP x, lit [')']])

/-- noidlen: the texts that give exactly syntax OID and length -/
def noidlen : Str × Option Nat → Language
  | (o, none) => exactly o (numericoid x)
  | (o, some n) => cats [exactly o (numericoid x), lit ['{'], (fun s => x.number s ∧ decimal s = n), lit ['}']]

/-- an optional part: a keyword with a value -/
def part {α : Type} (key : Str) (val : α → Language) : Option α → Language
  | none => lit []
  | some a => cats [SP x, lit key, SP x, val a]

/-- a list-valued part; nothing is written for the empty list -/
def listPart (key : Str) (val : List Str → Language) (l : List Str) : Language :=
  part x key val (if l = [] then none else some l)

/-- an optional keyword -/
def flag (key : Str) (present : Bool) : Language := if present then cat (SP x) (lit key) else lit []

/-- an optional keyword out of several -/
def choice (keys : List Str) : Option Str → Language
  | none => lit []
  | some k => cat (SP x) (exactly k (oneOf keys))

/-- What an attribute type description says. -/
structure AttributeType where
  oid : Str
  names : List Str
  hasDesc : Bool
  obsolete : Bool
  sup : Option Str
  equality : Option Str
  ordering : Option Str
  substr : Option Str
  syntaxLen : Option (Str × Option Nat)
  singleValue : Bool
  collective : Bool
  noUserMod : Bool
  usage : Option Str
  deriving DecidableEq

def usages : List Str := [str "userApplications", str "directoryOperation", str "distributedOperation", str "dSAOperation"]

/-- RFC 4512 4.1.2: the texts that say `d`. The text of `DESC` is not kept. -/
def attributeType (d : AttributeType) : Language :=
  cats [lit ['('], WSP x, exactly d.oid (numericoid x),
    listPart x (str "NAME") (qdescrs x) d.names,
    part x (str "DESC") (fun _ => qdstring) (if d.hasDesc then some () else none),
    flag x (str "OBSOLETE") d.obsolete,
    part x (str "SUP") (fun o => exactly o (oid x)) d.sup,
    part x (str "EQUALITY") (fun o => exactly o (oid x)) d.equality,
    part x (str "ORDERING") (fun o => exactly o (oid x)) d.ordering,
    part x (str "SUBSTR") (fun o => exactly o (oid x)) d.substr,
    part x (str "SYNTAX") (noidlen x) d.syntaxLen,
    flag x (str "SINGLE-VALUE") d.singleValue,
    flag x (str "COLLECTIVE") d.collective,
    flag x (str "NO-USER-MODIFICATION") d.noUserMod,
    part x (str "USAGE") (fun u => exactly u (oneOf usages)) d.usage,
    extension x, WSP x, lit [')']]

/-- What an object class description says. -/
structure ObjectClass where
  oid : Str
  names : List Str
  hasDesc : Bool
  obsolete : Bool
  sups : List Str
  kind : Option Str
  must : List Str
  may : List Str
  deriving DecidableEq

def kinds : List Str := [str "ABSTRACT", str "STRUCTURAL", str "AUXILIARY"]

/-- RFC 4512 4.1.1: the texts that say `d` -/
def objectClass (d : ObjectClass) : Language :=
  cats [lit ['('], WSP x, exactly d.oid (numericoid x),
    listPart x (str "NAME") (qdescrs x) d.names,
    part x (str "DESC") (fun _ => qdstring) (if d.hasDesc then some () else none),
    flag x (str "OBSOLETE") d.obsolete,
    listPart x (str "SUP") (oids x) d.sups,
    choice x kinds d.kind,
    listPart x (str "MUST") (oids x) d.must,
    listPart x (str "MAY") (oids x) d.may,
    extension x, WSP x, lit [')']]

end Laurelin.Spec.Rfc4512
