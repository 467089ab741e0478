import Verif.Model.Prep
import Verif.Spec.Rfc4517
/-! RFC 4517 3.3.10 Enhanced Guide and 3.3.14 Guide. -/
namespace Laurelin.Spec.Guide
open Laurelin Abnf Rfc4517

/-- a comparison of an attribute, or one of the two constants -/
def simple : Language :=
  alt (cats [oid, lit ['$'], oneOf [str "EQ", str "SUBSTR", str "GE", str "LE", str "APPROX"]]) (oneOf [str "?true", str "?false"])

mutual
/-- `criteria = and-term *( BAR and-term )` -/
inductive Criteria : Str → Prop
  | one (a : Str) : AndTerm a → Criteria a
  | or (a c : Str) : AndTerm a → Criteria c → Criteria (a ++ '|' :: c)
/-- `and-term = term *( AMPERSAND term )` -/
inductive AndTerm : Str → Prop
  | one (t : Str) : Term t → AndTerm t
  | and (t a : Str) : Term t → AndTerm a → AndTerm (t ++ '&' :: a)
/-- `term` -/
inductive Term : Str → Prop
  | not (t : Str) : Term t → Term ('!' :: t)
  | simple (t : Str) : simple t → Term t
  | paren (c : Str) : Criteria c → Term ('(' :: (c ++ [')']))
end

def objectClass : Language := cats [WSP, oid, WSP]
def subset : Language := oneOf [str "baseobject", str "oneLevel", str "wholeSubtree"]
def enhancedGuide : Language := cats [objectClass, lit ['#'], WSP, Criteria, WSP, lit ['#'], WSP, subset]
/-- with and without an object class -/
def guide : Language := cat (opt (cat objectClass (lit ['#']))) Criteria

/-- the parts of a text between the characters `|` and `&` -/
def pieces : Str → List Str
  | [] => [[]]
  | c :: t =>
    if c = '|' ∨ c = '&' then [] :: pieces t
    else match pieces t with
      | [] => [[c]]
      | p :: ps => (c :: p) :: ps

/-- `simple`, where the numbers of an OID may begin with zeroes -/
def simpleLoose : Language :=
  alt (cats [alt descr (cat (many1 DIGIT) (many1 (cat (lit ['.']) (many1 DIGIT)))), lit ['$'], oneOf [str "EQ", str "SUBSTR", str "GE", str "LE", str "APPROX"]])
    (oneOf [str "?true", str "?false"])

/-- `objectClass`, where the numbers of an OID may begin with zeroes -/
def classLoose : Language :=
  cats [WSP, alt descr (cat (many1 DIGIT) (many1 (cat (lit ['.']) (many1 DIGIT)))), WSP]

/-! ## What the code accepts as criteria, with parentheses -/

/-- parentheses of which each is closed -/
inductive Balanced : Str → Prop
  | nil : Balanced []
  | char (c : Char) (t : Str) : c ≠ '(' → c ≠ ')' → Balanced t → Balanced (c :: t)
  | group (g t : Str) : Balanced g → Balanced t → Balanced ('(' :: (g ++ ')' :: t))

/-- a text is this one with these parts in parentheses removed; closing parentheses that close nothing stay -/
inductive Without : Str → Str → List Str → Prop
  | nil : Without [] [] []
  | char (c : Char) (t rest : Str) (groups : List Str) : c ≠ '(' → Without t rest groups → Without (c :: t) (c :: rest) groups
  | group (g t rest : Str) (groups : List Str) : Balanced g → Without t rest groups → Without ('(' :: (g ++ ')' :: t)) rest (g :: groups)

/-- nothing, or a text that begins with a comparison or a constant; exclamation marks do not count -/
def looseTerm (p : Str) : Prop := p.filter (fun c => c != '!') = [] ∨ ∃ a b, p.filter (fun c => c != '!') = a ++ b ∧ simpleLoose a

/-- the parts in parentheses are criteria, and without them each part between `|` and `&` is a term -/
inductive Loose : Str → Prop
  | mk (s rest : Str) (groups : List Str) : Without s rest groups → (∀ g ∈ groups, Loose g) → (∀ p ∈ pieces rest, looseTerm p) → Loose s

/-- a text without the white space at its ends -/
def Trimmed (s c : Str) : Prop :=
  ∃ a b, s = a ++ (c ++ b) ∧ (∀ x ∈ a, inClass pySpace x = true) ∧ (∀ x ∈ b, inClass pySpace x = true) ∧ (∀ x t, c = x :: t → inClass pySpace x = false) ∧ (∀ t x, c = t ++ [x] → inClass pySpace x = false)

/-- what the code accepts: a class, criteria -/
def looseGuide (s : Str) : Prop :=
  ∃ cls crit c, s = cls ++ '#' :: crit ∧ '#' ∉ cls ∧ '#' ∉ crit ∧ (∃ u v, cls = u ++ v ∧ classLoose u) ∧ Trimmed crit c ∧ Loose c

/-- what the code accepts: a class, criteria, a subset -/
def looseEnhancedGuide (s : Str) : Prop :=
  ∃ cls crit c sub d, s = cls ++ '#' :: (crit ++ '#' :: sub) ∧ '#' ∉ cls ∧ '#' ∉ crit ∧ '#' ∉ sub ∧ (∃ u v, cls = u ++ v ∧ classLoose u) ∧ Trimmed crit c ∧ Loose c ∧ Trimmed sub d ∧ subset d

end Laurelin.Spec.Guide
