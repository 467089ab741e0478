import Verif.Model.Basic
/-!
The combinators of ABNF (RFC 5234) as languages: sets of strings. Quoted strings are read case-sensitively.
-/
namespace Laurelin.Spec

/-- a language -/
abbrev Language := Str → Prop

namespace Abnf

/-- a quoted string -/
def lit (w : Str) : Language := fun s => s = w
/-- one character of a set -/
def chr (p : Char → Bool) : Language := fun s => ∃ c, s = [c] ∧ p c = true
/-- concatenation -/
def cat (a b : Language) : Language := fun s => ∃ u v, s = u ++ v ∧ a u ∧ b v
/-- alternative `a / b` -/
def alt (a b : Language) : Language := fun s => a s ∨ b s
/-- optional `[a]` -/
def opt (a : Language) : Language := fun s => s = [] ∨ a s
/-- repetition `*a` -/
def many (a : Language) : Language := fun s => ∃ l : List Str, s = l.flatten ∧ ∀ u ∈ l, a u
/-- repetition `1*a` -/
def many1 (a : Language) : Language := fun s => ∃ l : List Str, l ≠ [] ∧ s = l.flatten ∧ ∀ u ∈ l, a u
/-- concatenation of several -/
def cats : List Language → Language
  | [] => lit []
  | [a] => a
  | a :: b :: l => cat a (cats (b :: l))
/-- one of several quoted strings -/
def oneOf (l : List Str) : Language := fun s => s ∈ l

end Abnf
end Laurelin.Spec
