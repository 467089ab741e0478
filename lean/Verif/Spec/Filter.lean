import Verif.Model.Filter
/-!
Specification of filter texts, independent of the recognisers: what a well-formed filter is (RFC 4511/4515 shapes, with the
restrictions named below), what it evaluates to, and the written boolean expressions of laurelin's simple syntax.
The only thing shared with the model is the plain data type `Filter`.
-/
namespace Laurelin.Spec
open Laurelin

def isLetter (c : Char) : Prop := ('a' ≤ c ∧ c ≤ 'z') ∨ ('A' ≤ c ∧ c ≤ 'Z')
def isDig (c : Char) : Prop := '0' ≤ c ∧ c ≤ '9'
/-- a character allowed after the first in an attribute name or in an option -/
def isNameChar (c : Char) : Prop := isLetter c ∨ isDig c ∨ c = '-'
def isHexDig (c : Char) : Prop := isDig c ∨ ('a' ≤ c ∧ c ≤ 'f') ∨ ('A' ≤ c ∧ c ≤ 'F')
/-- characters that stand for themselves in an assertion value -/
def isPlain (c : Char) : Prop := c ≠ Char.ofNat 0 ∧ c ≠ '(' ∧ c ≠ ')' ∧ c ≠ '*' ∧ c ≠ '\\'

/-- RFC 4515 assertion value text: plain characters and `\hh` escapes -/
inductive ValueText : Str → Prop
  | nil : ValueText []
  | plain {c : Char} {t : Str} : isPlain c → ValueText t → ValueText (c :: t)
  | escaped {h1 h2 : Char} {t : Str} : isHexDig h1 → isHexDig h2 → ValueText t → ValueText ('\\' :: h1 :: h2 :: t)

/-- a descriptor: a letter followed by name characters -/
def Descr (s : Str) : Prop := ∃ c t, s = c :: t ∧ isLetter c ∧ ∀ x ∈ t, isNameChar x

/-- RFC 4512 `number`: a digit, or several digits not starting with 0 -/
def Arc (s : Str) : Prop := s ≠ [] ∧ (∀ x ∈ s, isDig x) ∧ (s.length > 1 → s.head? ≠ some '0')

/-- RFC 4512 `numericoid`: at least two arcs separated by dots -/
def NumericOid (s : Str) : Prop :=
  ∃ (a : Str) (l : List Str), s = a ++ (l.map (fun b => '.' :: b)).flatten ∧ l ≠ [] ∧ Arc a ∧ ∀ b ∈ l, Arc b

/-- the numeric OIDs laurelin accepts: every arc is one digit -/
def ShortOid (s : Str) : Prop :=
  ∃ (a : Char) (l : List Char), s = a :: (l.map (fun b => ['.', b])).flatten ∧ l ≠ [] ∧ isDig a ∧ ∀ b ∈ l, isDig b

/-- descriptor or short numeric OID -/
def OidText (s : Str) : Prop := Descr s ∨ ShortOid s

/-- attribute description: an OID and `;option`s -/
def AttrText (s : Str) : Prop :=
  ∃ (o : Str) (opts : List Str), s = o ++ (opts.map (fun p => ';' :: p)).flatten ∧ OidText o ∧ ∀ p ∈ opts, p ≠ [] ∧ ∀ x ∈ p, isNameChar x

/-- a substrings assertion: optional non-empty initial, any number of `any`s, optional non-empty final, at least one component, and
not ending with an empty `any` -/
def SubsText (subs : List Sub) : Prop :=
  ∃ (i : Option Str) (anys : List Str) (f : Option Str),
    subs = i.toList.map Sub.initial ++ anys.map Sub.any ++ f.toList.map Sub.final ∧
    subs ≠ [] ∧ subs.getLast? ≠ some (.any []) ∧
    (∀ x ∈ i, x ≠ [] ∧ ValueText x) ∧ (∀ x ∈ anys, ValueText x) ∧ (∀ x ∈ f, x ≠ [] ∧ ValueText x)

/-- well-formed filters -/
inductive WellFormed : Filter → Prop
  | and {l} : l ≠ [] → (∀ f ∈ l, WellFormed f) → WellFormed (.and l)
  | or {l} : l ≠ [] → (∀ f ∈ l, WellFormed f) → WellFormed (.or l)
  | not {f} : WellFormed f → WellFormed (.not f)
  | equality {a v} : AttrText a → ValueText v → WellFormed (.equality a v)
  | greaterOrEqual {a v} : AttrText a → ValueText v → WellFormed (.greaterOrEqual a v)
  | lessOrEqual {a v} : AttrText a → ValueText v → WellFormed (.lessOrEqual a v)
  | approx {a v} : AttrText a → ValueText v → WellFormed (.approx a v)
  | present {a} : AttrText a → WellFormed (.present a)
  | substrings {a subs} : AttrText a → SubsText subs → WellFormed (.substrings a subs)
  | extensible {rule attr v dn} : (rule ≠ none ∨ attr ≠ none) → (∀ a ∈ attr, AttrText a) → (∀ r ∈ rule, OidText r) →
      (dn = false → ∀ r ∈ rule, ¬ str "dn" <+: r) → ValueText v → WellFormed (.extensible rule attr v dn)

/-- one comparison, without its parentheses: which texts denote which filter -/
inductive AvaText : Str → Filter → Prop
  | equality {a v} : AttrText a → ValueText v → AvaText (a ++ str "=" ++ v) (.equality a v)
  | approx {a v} : AttrText a → ValueText v → AvaText (a ++ str "~=" ++ v) (.approx a v)
  | greaterOrEqual {a v} : AttrText a → ValueText v → AvaText (a ++ str ">=" ++ v) (.greaterOrEqual a v)
  | lessOrEqual {a v} : AttrText a → ValueText v → AvaText (a ++ str "<=" ++ v) (.lessOrEqual a v)
  | present {a} : AttrText a → AvaText (a ++ str "=*") (.present a)
  | substrings {a} {i f : Str} {anys : List Str} : AttrText a → ValueText i → (∀ x ∈ anys, ValueText x) → ValueText f →
      ¬ (i = [] ∧ anys = [] ∧ f = []) →
      AvaText (a ++ str "=" ++ i ++ str "*" ++ (anys.map (· ++ str "*")).flatten ++ f)
        (.substrings a ((if i = [] then [] else [.initial i]) ++ anys.map .any ++ (if f = [] then [] else [.final f])))
  | extensible {rule attr : Option Str} {v : Str} {dn : Bool} : (rule ≠ none ∨ attr ≠ none) → (∀ a ∈ attr, AttrText a) →
      (∀ r ∈ rule, OidText r) → (dn = false → ∀ r ∈ rule, ¬ str "dn" <+: r) → ValueText v →
      AvaText (attr.getD [] ++ (if dn then str ":dn" else []) ++ (rule.map (':' :: ·)).getD [] ++ str ":=" ++ v)
        (.extensible rule attr v dn)

inductive ListLevel where
  | one | many

/-- the RFC 4515 filter grammar as a relation between texts and filters: `Std .one s [f]` – the text is the filter `f`;
`Std .many s fs` – the text is a sequence of filters -/
inductive Std : ListLevel → Str → List Filter → Prop
  | comparison {t f} : AvaText t f → Std .one (str "(" ++ t ++ str ")") [f]
  | and {t fs} : fs ≠ [] → Std .many t fs → Std .one (str "(&" ++ t ++ str ")") [.and fs]
  | or {t fs} : fs ≠ [] → Std .many t fs → Std .one (str "(|" ++ t ++ str ")") [.or fs]
  | not {t f} : Std .one t [f] → Std .one (str "(!" ++ t ++ str ")") [.not f]
  | nil : Std .many [] []
  | cons {t u f fs} : Std .one t [f] → Std .many u fs → Std .many (t ++ u) (f :: fs)

/-- `s` is the standard filter `f` -/
def StdText (s : Str) (f : Filter) : Prop := Std .one s [f]

/-- a comparison in parentheses -/
def SimpleLeaf (s : Str) (f : Filter) : Prop := ∃ t, AvaText t f ∧ s = str "(" ++ t ++ str ")"

/-- spaces and tabs -/
def Blank (s : Str) : Prop := ∀ c ∈ s, c = ' ' ∨ c = '\t'

/-- one operand stands for itself, several are combined -/
def bundle (mk : List Filter → Filter) : List Filter → Filter
  | [f] => f
  | l => mk l

inductive LogicLevel where
  | term | ands | ors

/-- laurelin's logic syntax over a set of leaves, as a relation: a term is a leaf, `NOT` term or a parenthesised expression;
terms are joined by `AND`, and-expressions by `OR`. The list holds the operands at that level. -/
inductive Logic (leaf : Str → Filter → Prop) : LogicLevel → Str → List Filter → Prop
  | leaf {s f} : leaf s f → Logic leaf .term s [f]
  | not {b s f} : Blank b → Logic leaf .term s [f] → Logic leaf .term (str "NOT" ++ b ++ s) [.not f]
  | paren {a b s fs} : Blank a → Blank b → Logic leaf .ors s fs →
      Logic leaf .term (str "(" ++ a ++ s ++ b ++ str ")") [bundle .or fs]
  | andOne {s f} : Logic leaf .term s [f] → Logic leaf .ands s [f]
  | andCons {a b s t f fs} : Logic leaf .term s [f] → Blank a → Blank b → Logic leaf .ands t fs →
      Logic leaf .ands (s ++ a ++ str "AND" ++ b ++ t) (f :: fs)
  | orOne {s fs} : Logic leaf .ands s fs → Logic leaf .ors s [bundle .and fs]
  | orCons {a b s t fs gs} : Logic leaf .ands s fs → Blank a → Blank b → Logic leaf .ors t gs →
      Logic leaf .ors (s ++ a ++ str "OR" ++ b ++ t) (bundle .and fs :: gs)

/-- `s` is, in the logic syntax over the leaves, the filter `f` -/
def LogicText (leaf : Str → Filter → Prop) (s : Str) (f : Filter) : Prop := ∃ fs, Logic leaf .ors s fs ∧ f = bundle .or fs

/-- RFC 4515 decoding of an assertion value: the octets/characters it stands for (`none` when malformed); `hexVal` gives the
character with that code -/
def hexVal (c : Char) : Nat :=
  if '0' ≤ c ∧ c ≤ '9' then c.toNat - '0'.toNat
  else if 'a' ≤ c ∧ c ≤ 'f' then c.toNat - 'a'.toNat + 10 else c.toNat - 'A'.toNat + 10

instance (c : Char) : Decidable (isHexDig c) := by unfold isHexDig isDig; infer_instance

def decodeValue : Str → Option Str
  | [] => some []
  | '\\' :: h1 :: h2 :: t =>
    if isHexDig h1 ∧ isHexDig h2 then (decodeValue t).map (fun r => Char.ofNat (16 * hexVal h1 + hexVal h2) :: r) else none
  | c :: t => if c = '\\' then none else (decodeValue t).map (c :: ·)

/-- three-valued filter evaluation (RFC 4511 4.5.1.7): `some` is True/False, `none` is Undefined -/
abbrev Tri := Option Bool

/-- Kleene conjunction: False if one is False, True if both are True, else Undefined -/
def kand : Tri → Tri → Tri
  | some false, _ => some false
  | _, some false => some false
  | some true, some true => some true
  | _, _ => none

/-- Kleene disjunction -/
def kor : Tri → Tri → Tri
  | some true, _ => some true
  | _, some true => some true
  | some false, some false => some false
  | _, _ => none

def triAnd (l : List Tri) : Tri := l.foldr kand (some true)

def triOr (l : List Tri) : Tri := l.foldr kor (some false)

def triNot : Tri → Tri
  | some b => some (!b)
  | none => none

/-- evaluate a filter, given the truth of each comparison on the entry at hand -/
def evalFilter (leaf : Filter → Tri) : Filter → Tri
  | .and l => triAnd (evalList l)
  | .or l => triOr (evalList l)
  | .not f => triNot (evalFilter leaf f)
  | f => leaf f
where
  evalList : List Filter → List Tri
    | [] => []
    | f :: fs => evalFilter leaf f :: evalList fs

/-- the conventional reading of a written boolean expression: `NOT` applies to the next term, `AND` binds tighter than `OR`,
parentheses group. `truth s b`: the comparison written `s` (with its parentheses) has truth value `b`. -/
inductive Means (truth : Str → Tri → Prop) : LogicLevel → Str → Tri → Prop
  | comparison {s b} : truth s b → Means truth .term s b
  | not {sp s b} : Blank sp → Means truth .term s b → Means truth .term (str "NOT" ++ sp ++ s) (triNot b)
  | paren {sp sp' s b} : Blank sp → Blank sp' → Means truth .ors s b → Means truth .term (str "(" ++ sp ++ s ++ sp' ++ str ")") b
  | and1 {s b} : Means truth .term s b → Means truth .ands s b
  | and2 {sp sp' s t b c} : Means truth .term s b → Blank sp → Blank sp' → Means truth .ands t c →
      Means truth .ands (s ++ sp ++ str "AND" ++ sp' ++ t) (kand b c)
  | or1 {s b} : Means truth .ands s b → Means truth .ors s b
  | or2 {sp sp' s t b c} : Means truth .ands s b → Blank sp → Blank sp' → Means truth .ors t c →
      Means truth .ors (s ++ sp ++ str "OR" ++ sp' ++ t) (kor b c)

end Laurelin.Spec
