import Verif.Spec.Rfc4517
import Verif.Spec.Rfc4518
/-!
When two values are the same by the equality rules of RFC 4517, section 4.2, in terms of what the texts stand for.
-/
namespace Laurelin.Spec.Values
open Laurelin Abnf Rfc4517

/-- the number written by decimal digits -/
def natOf (s : Str) : Nat := s.foldl (fun n c => 10 * n + (c.toNat - '0'.toNat)) 0
/-- the number written by an INTEGER -/
def numberOf : Str → Int
  | '-' :: s => -(natOf s : Int)
  | s => natOf s
/-- the bits of a bit string `'0101'B` -/
def bits (s : Str) : List Bool := (s.filter (fun c => c == '0' || c == '1')).map (· == '1')
/-- the digits of a numeric string -/
def digits (s : Str) : Str := s.filter Char.isDigit
/-- what counts in a telephone number: everything but spaces and hyphens, regardless of casing -/
def dialled (s : Str) : Str := (s.filter (fun c => c != ' ' && c != '-')).map Char.toLower
/-- printable ASCII, not empty -/
def plain (s : Str) : Prop := s ≠ [] ∧ ∀ c ∈ s, 0x20 ≤ c.toNat ∧ c.toNat < 0x7f
/-- the same words, regardless of casing and of the number of spaces -/
def sameWords (a b : Str) : Prop := words (a.map Char.toLower) = words (b.map Char.toLower)
/-- the lines of a postal address; a dollar sign within a line is escaped -/
def lines (s : Str) : List Str := pySplit '$' s
/-- 4.2.9 caseIgnoreListMatch: as many lines, and the same words in each of them -/
def sameLines (a b : Str) : Prop := (lines a).map (fun l => words (l.map Char.toLower)) = (lines b).map (fun l => words (l.map Char.toLower))

/-- rule, values it is for, and when they are the same. Where these are characters of Unicode in general, it is for printable ASCII here; see C36 for the others. -/
def meanings : List (Str × Language × (Str → Str → Prop)) := [
  (str "bitStringMatch", bitString, fun a b => bits a = bits b),
  (str "booleanMatch", boolean, fun a b => (a = str "TRUE" ↔ b = str "TRUE")),
  (str "integerMatch", integer, fun a b => numberOf a = numberOf b),
  (str "numericStringMatch", numericString, fun a b => digits a = digits b),
  (str "octetStringMatch", fun _ => True, fun a b => a = b),
  (str "telephoneNumberMatch", printableString, fun a b => dialled a = dialled b),
  (str "caseIgnoreMatch", plain, sameWords),
  (str "caseIgnoreIA5Match", plain, sameWords),
  (str "caseExactMatch", fun s => plain s ∧ s.head? ≠ some 'F', fun a b => words a = words b),
  (str "caseExactIA5Match", fun s => plain s ∧ s.head? ≠ some 'F', fun a b => words a = words b)]

end Laurelin.Spec.Values
