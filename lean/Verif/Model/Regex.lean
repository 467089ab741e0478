import Verif.Model.Strings
/-!
The regular expressions of Python's `re` that the modelled code uses (builtin semantics, not code of the repo): no
back-references, and groups only for grouping. A backtracking search is complete, so `compiled.match(s)` succeeds exactly when the
expression matches some prefix of `s` that satisfies the anchors; the matcher below decides that by derivatives, and
`Props/Syntax.lean` relates it to the languages.
-/
namespace Laurelin

/-- Regular expressions -/
inductive Rx where
  | none                        -- matches nothing
  | eps                         -- the empty string
  | cls (p : Char → Bool)       -- a character class
  | seq (a b : Rx)
  | alt (a b : Rx)
  | star (a : Rx)

namespace Rx

/-- a literal text -/
def lit : Str → Rx
  | [] => eps
  | [c] => cls (fun x => x == c)
  | c :: d :: t => seq (cls (fun x => x == c)) (lit (d :: t))

/-- `a?` -/
def opt (a : Rx) : Rx := alt eps a
/-- `a+` -/
def plus (a : Rx) : Rx := seq a (star a)
/-- concatenation of several expressions -/
def cat : List Rx → Rx
  | [] => eps
  | [a] => a
  | a :: b :: l => seq a (cat (b :: l))
/-- `(?:a|b|…)` -/
def any : List Rx → Rx
  | [] => none
  | [a] => a
  | a :: b :: l => alt a (any (b :: l))
/-- `a{n}` -/
def rep (a : Rx) : Nat → Rx
  | 0 => eps
  | n + 1 => seq a (rep a n)

/-- Does the expression match the empty string? -/
def nullable : Rx → Bool
  | none => false
  | eps => true
  | cls _ => false
  | seq a b => a.nullable && b.nullable
  | alt a b => a.nullable || b.nullable
  | star _ => true

/-- What must match the rest after the character `c` -/
def deriv (c : Char) : Rx → Rx
  | none => none
  | eps => none
  | cls p => if p c then eps else none
  | seq a b => if a.nullable then alt (seq (a.deriv c) b) (b.deriv c) else seq (a.deriv c) b
  | alt a b => alt (a.deriv c) (b.deriv c)
  | star a => seq (a.deriv c) (star a)

/-- Does the expression match the whole text? -/
def full (r : Rx) : Str → Bool
  | [] => r.nullable
  | c :: t => (r.deriv c).full t

/-- Does the expression match some prefix of the text? `re.compile(r).match(s)` without `$` -/
def prefixMatch (r : Rx) : Str → Bool
  | [] => r.nullable
  | c :: t => r.nullable || (r.deriv c).prefixMatch t

/-- `re.compile('^' + r + '$').match(s)`: Python's `$` also matches just before a final newline. -/
def anchored (r : Rx) (s : Str) : Bool := r.full s || (s.getLast? == some '\n' && r.full s.dropLast)

end Rx
end Laurelin
