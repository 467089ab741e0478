import Verif.Model.Basic
/-!
Search filters (laurelin/ldap/filter.py). The three parsimonious grammars are re-implemented as recognisers with
parsimonious' PEG semantics: ordered choice, greedy repetition without backtracking, and a repetition that stops at a
failing or zero-length match. A recogniser returns the matched text / result and the remaining input.
parsimonious raises `ParseError` (turned into `LDAPError`) when the start rule does not match or does not consume everything.

Simplifications: values stay strings (pyasn1's UTF-8 encoding is not modelled); Python's recursion limit is not
modelled; for the recursive rules the tree handlers, which only rebuild the tree, are fused with the recognisers
(`_handle_rfc4515_ava` is separate). Recursion is bounded by a fuel one above the length of the input; `std_fuel` and
`term_fuel` in `Lemmas/Filter.lean` show that any larger fuel gives the same result.
-/
namespace Laurelin

/-- rfc4511.py:556-572: one element of a substrings filter -/
inductive Sub where
  | initial (s : Str) | any (s : Str) | final (s : Str)
  deriving DecidableEq, Repr

/-- rfc4511.py:529-650 `Filter` (choice) -/
inductive Filter where
  | and (l : List Filter)
  | or (l : List Filter)
  | not (f : Filter)
  | equality (attr value : Str)
  | substrings (attr : Str) (subs : List Sub)
  | greaterOrEqual (attr value : Str)
  | lessOrEqual (attr value : Str)
  | present (attr : Str)
  | approx (attr value : Str)
  | extensible (rule : Option Str) (attr : Option Str) (value : Str) (dnAttrs : Bool)
  deriving Repr

/-- decidable equality of filters, used by examples only -/
def Filter.beq : Filter → Filter → Bool
  | .and a, .and b => beqList a b
  | .or a, .or b => beqList a b
  | .not a, .not b => Filter.beq a b
  | .equality a v, .equality b w => a == b && v == w
  | .substrings a v, .substrings b w => a == b && decide (v = w)
  | .greaterOrEqual a v, .greaterOrEqual b w => a == b && v == w
  | .lessOrEqual a v, .lessOrEqual b w => a == b && v == w
  | .present a, .present b => a == b
  | .approx a v, .approx b w => a == b && v == w
  | .extensible r a v d, .extensible r' a' v' d' => r == r' && a == a' && v == v' && d == d'
  | _, _ => false
where
  beqList : List Filter → List Filter → Bool
    | [], [] => true
    | x :: xs, y :: ys => Filter.beq x y && beqList xs ys
    | _, _ => false

/-- filter.py:15-27 `escape_map` -/
def escapeMap : List (Char × Str) :=
  [('(', str "\\28"), (')', str "\\29"), ('&', str "\\26"), ('|', str "\\7c"), ('!', str "\\21"), ('=', str "\\3d"),
   ('<', str "\\3c"), ('>', str "\\3e"), ('~', str "\\7e"), ('*', str "\\2a"), ('/', str "\\2f")]

/-- `str.replace` of a one-character pattern (builtin) -/
def replaceChar (text : Str) (c : Char) (rep : Str) : Str := text.flatMap (fun x => if x = c then rep else [x])

/-- filter.py:30-34 `escape` -/
def escape (text : Str) : Str := escapeMap.foldl (fun t e => replaceChar t e.1 e.2) text

/-- a recogniser -/
abbrev Rec (α : Type) := Str → Option (α × Str)

/-- PEG `e*` (parsimonious `ZeroOrMore`): stop at a failing or zero-length match. -/
def starF {α : Type} (p : Rec α) : Nat → Str → List α × Str
  | 0, s => ([], s)
  | n + 1, s =>
    match p s with
    | none => ([], s)
    | some (x, r) =>
      if r.length < s.length then
        let q := starF p n r
        (x :: q.1, q.2)
      else ([], s)

def star {α : Type} (p : Rec α) (s : Str) : List α × Str := starF p s.length s

/-- PEG literal -/
def kw : Str → Str → Option Str
  | [], s => some s
  | c :: w, d :: s => if c = d then kw w s else none
  | _ :: _, [] => none

/-- filter.py:71 `keychar = ALPHA / DIGIT / HYPHEN` -/
def isKeychar (c : Char) : Bool := c.isAlpha || c.isDigit || c == '-'

/-- filter.py:78 `HEX` -/
def isHex (c : Char) : Bool := c.isDigit || ('A' ≤ c && c ≤ 'F') || ('a' ≤ c && c ≤ 'f')

/-- filter.py:76 `normal = ~r"[^\0()*\\]"` -/
def isNormal (c : Char) : Bool := !(c == Char.ofNat 0 || c == '(' || c == ')' || c == '*' || c == '\\')

/-- filter.py:74-77 `valueencoding = (normal / escaped)*`: text and rest -/
def value : Str → Str × Str
  | [] => ([], [])
  | '\\' :: h1 :: h2 :: t =>
    if isHex h1 && isHex h2 then let q := value t; ('\\' :: h1 :: h2 :: q.1, q.2) else ([], '\\' :: h1 :: h2 :: t)
  | c :: t => if isNormal c then let q := value t; (c :: q.1, q.2) else ([], c :: t)

/-- filter.py:68-72 `descr = keystring = leadkeychar keychar*` -/
def descr : Rec Str
  | c :: t => if c.isAlpha then some (c :: t.takeWhile isKeychar, t.dropWhile isKeychar) else none
  | [] => none

/-- filter.py:64-66 `number = DIGIT / ( LDIGIT DIGIT+ )`: the first alternative matches whenever the second would. -/
def number : Rec Str
  | c :: t => if c.isDigit then some ([c], t)
    else if c.isDigit && c != '0' then
      (match t with
       | d :: t' => if d.isDigit then some (c :: d :: t'.takeWhile Char.isDigit, t'.dropWhile Char.isDigit) else none
       | [] => none)
    else none
  | [] => none

/-- filter.py:63 `DOT number` -/
def dotNumber : Rec Str
  | '.' :: t => match number t with
    | some (n, r) => some ('.' :: n, r)
    | none => none
  | _ => none

/-- filter.py:63 `numericoid = number ( DOT number )+` -/
def numericoid : Rec Str := fun s =>
  match number s with
  | none => none
  | some (n, r) =>
    match star dotNumber r with
    | ([], _) => none
    | (l, r') => some (n ++ l.flatten, r')

/-- filter.py:61 `oid = descr / numericoid` -/
def oid : Rec Str := fun s => (descr s).orElse (fun _ => numericoid s)

/-- filter.py:55-56 `SEMI option`, `option = keychar+` -/
def semiOption : Rec Str
  | ';' :: t => match t.takeWhile isKeychar with
    | [] => none
    | o => some (';' :: o, t.dropWhile isKeychar)
  | _ => none

/-- filter.py:51-55 `attr = attributedescription = attributetype options` -/
def attrP : Rec Str := fun s =>
  match oid s with
  | none => none
  | some (o, r) =>
    let q := star semiOption r
    some (o ++ q.1.flatten, q.2)

/-- filter.py:40-44: which comparison a `simple` node is -/
inductive FType where
  | approx | greaterorequal | lessorequal | equals
  deriving DecidableEq, Repr

/-- the `rfc4515_ava` node: the texts of the children `_handle_rfc4515_ava` reads -/
inductive AvaNode where
  | substring (attr initial : Str) (anys : List Str) (final : Str)
  | simple (attr : Str) (ft : FType) (value : Str)
  | ext6 (attr dnattrs rule value : Str)
  | ext5 (dnattrs rule value : Str)
  deriving DecidableEq, Repr

/-- filter.py:40-44 `filtertype = approx / greaterorequal / lessorequal / equal` -/
def filtertype : Rec FType := fun s =>
  match kw (str "~=") s with
  | some r => some (.approx, r)
  | none => match kw (str ">=") s with
    | some r => some (.greaterorequal, r)
    | none => match kw (str "<=") s with
      | some r => some (.lessorequal, r)
      | none => match kw (str "=") s with
        | some r => some (.equals, r)
        | none => none

/-- filter.py:49 `assertionvalue ASTERISK` -/
def valueStar : Rec Str := fun s =>
  match value s with
  | (v, '*' :: r) => some (v, r)
  | _ => none

/-- filter.py:47-50 `substring = attr EQUALS initial? any final?` (an optional that matches the empty text and one that
does not match are not distinguished: only `.text` is read) -/
def substringP : Rec AvaNode := fun s =>
  match attrP s with
  | none => none
  | some (a, r) =>
    match kw (str "=") r with
    | none => none
    | some r1 =>
      match value r1 with
      | (i, '*' :: r2) =>
        let q := star valueStar r2
        let f := value q.2
        some (.substring a i q.1 f.1, f.2)
      | _ => none

/-- filter.py:39 `simple = attr filtertype assertionvalue` -/
def simpleP : Rec AvaNode := fun s =>
  match attrP s with
  | none => none
  | some (a, r) =>
    match filtertype r with
    | none => none
    | some (ft, r1) => let v := value r1; some (.simple a ft v.1, v.2)

/-- filter.py:58 `dnattrs = COLON "dn"`, optional -/
def dnattrsOpt (s : Str) : Str × Str :=
  match kw (str ":dn") s with
  | some r => (str ":dn", r)
  | none => ([], s)

/-- filter.py:59 `matchingrule = COLON oid` -/
def matchingrule : Rec Str
  | ':' :: t => match oid t with
    | some (o, r) => some (':' :: o, r)
    | none => none
  | _ => none

/-- filter.py:45-46 `extensible` -/
def extensibleP : Rec AvaNode := fun s =>
  let alt1 : Option (AvaNode × Str) :=
    match attrP s with
    | none => none
    | some (a, r) =>
      let d := dnattrsOpt r
      let m := (matchingrule d.2).getD ([], d.2)
      match kw (str ":=") m.2 with
      | none => none
      | some r1 => let v := value r1; some (.ext6 a d.1 m.1 v.1, v.2)
  let alt2 : Option (AvaNode × Str) :=
    let d := dnattrsOpt s
    match matchingrule d.2 with
    | none => none
    | some (m, r) =>
      match kw (str ":=") r with
      | none => none
      | some r1 => let v := value r1; some (.ext5 d.1 m v.1, v.2)
  alt1.orElse (fun _ => alt2)

/-- filter.py:38 `rfc4515_ava = substring / simple / extensible` -/
def avaP : Rec AvaNode := fun s =>
  (substringP s).orElse (fun _ => (simpleP s).orElse (fun _ => extensibleP s))

/-- Python truthiness of an optional component set only `if x:` -/
def optText (s : Str) : Option Str := if s = [] then none else some s

/-- filter.py:148-227 `_handle_rfc4515_ava` -/
def handleAva : AvaNode → Filter
  | .simple a .equals v => .equality a v
  | .simple a .approx v => .approx a v
  | .simple a .greaterorequal v => .greaterOrEqual a v
  | .simple a .lessorequal v => .lessOrEqual a v
  | .substring a i anys f =>
    if i = [] ∧ anys = [] ∧ f = [] then .present a
    else .substrings a ((if i ≠ [] then [Sub.initial i] else []) ++ (if anys ≠ [] then anys.map Sub.any else [])
      ++ (if f ≠ [] then [Sub.final f] else []))
  | .ext6 a d m v => .extensible (optText (m.drop 1)) (optText a) v (d == str ":dn")
  | .ext5 d m v => .extensible (optText (m.drop 1)) none v (d == str ":dn")

/-- filter.py:95-98,124-135: `AMPERSAND filterlist` / `VERTBAR filterlist` -/
def listComp (c : Char) (mk : List Filter → Filter) (rec : Rec Filter) : Rec Filter
  | d :: r =>
    if d = c then
      (match star rec r with
       | ([], _) => none
       | (l, r') => some (mk l, r'))
    else none
  | [] => none

/-- filter.py:97,136-140 -/
def notComp (rec : Rec Filter) : Rec Filter
  | '!' :: r => match rec r with
    | some (f, r') => some (.not f, r')
    | none => none
  | _ => none

/-- filter.py:38,141-142 -/
def avaComp : Rec Filter := fun s => (avaP s).map (fun q => (handleAva q.1, q.2))

/-- filter.py:94 `filtercomp = and / or / not / rfc4515_ava` with `_handle_standard_filter` (filter.py:120-145) -/
def filtercomp (rec : Rec Filter) : Rec Filter := fun s =>
  (listComp '&' .and rec s).orElse (fun _ => (listComp '|' .or rec s).orElse (fun _ =>
    (notComp rec s).orElse (fun _ => avaComp s)))

/-- `LPAREN p RPAREN` -/
def parens (p : Rec Filter) : Rec Filter
  | '(' :: r => match p r with
    | some (f, ')' :: r') => some (f, r')
    | _ => none
  | _ => none

/-- filter.py:93 `standard_filter = LPAREN filtercomp RPAREN` -/
def std : Nat → Rec Filter
  | 0 => fun _ => none
  | n + 1 => parens (filtercomp (std n))

/-- `Grammar.parse`: the start rule must consume the whole text; `ParseError` becomes `LDAPError` -/
def whole (p : Rec Filter) (s : Str) : Except Err Filter :=
  match p s with
  | some (f, []) => .ok f
  | _ => .error .ldapError

/-- filter.py:110-117 `parse_standard_filter` -/
def parseStandard (s : Str) : Except Err Filter := whole (std (s.length + 1)) s

/-- filter.py:237 `SPACE = ~"[ \t]*"` -/
def space (s : Str) : Str := s.dropWhile (fun c => c == ' ' || c == '\t')

/-- filter.py:234 `and_exp = SPACE AND SPACE term`, filter.py:233 `or_exp = SPACE OR SPACE component` -/
def opExp (word : Str) (p : Rec Filter) : Rec Filter := fun s =>
  match kw word (space s) with
  | none => none
  | some r => p (space r)

/-- filter.py:231-232 `first rest*` with filter.py:265-304 `_handle_simple_filter` / `_handle_component`: one element stays as
it is, several become a set -/
def chain (word : Str) (mk : List Filter → Filter) (p : Rec Filter) : Rec Filter := fun s =>
  match p s with
  | none => none
  | some (f, r) =>
    match star (opExp word p) r with
    | ([], r') => some (f, r')
    | (fs, r') => some (mk (f :: fs), r')

/-- filter.py:232 `component = term and_exp*` -/
def component (term : Rec Filter) : Rec Filter := chain (str "AND") .and term

/-- filter.py:231 `filter = component or_exp*` -/
def simpleFilter (term : Rec Filter) : Rec Filter := chain (str "OR") .or (component term)

/-- filter.py:235 `not_exp = NOT SPACE term` with filter.py:309-313 -/
def notExp (term : Rec Filter) : Rec Filter := fun s =>
  match kw (str "NOT") s with
  | none => none
  | some r => match term (space r) with
    | some (f, r') => some (.not f, r')
    | none => none

/-- filter.py:236 `paren_term = "(" SPACE filter SPACE ")"` with filter.py:314-315 -/
def parenTerm (term : Rec Filter) : Rec Filter :=
  parens (fun r => match simpleFilter term (space r) with
    | some (f, r') => some (f, space r')
    | none => none)

/-- filter.py:244 and 330 `term = not_exp / paren_term / leaf` with `_handle_term` (filter.py:307-326) -/
def term (leaf : Rec Filter) : Nat → Rec Filter
  | 0 => fun _ => none
  | n + 1 => fun s =>
    (notExp (term leaf n) s).orElse (fun _ => (parenTerm (term leaf n) s).orElse (fun _ => leaf s))

/-- filter.py:245 `ava = "(" rfc4515_ava ")"` with filter.py:318-320 -/
def simpleLeaf : Rec Filter := parens avaComp

/-- filter.py:330 the leaf of the unified grammar -/
def unifiedLeaf : Rec Filter := fun s => std (s.length + 1) s

/-- filter.py:251-262 `parse_simple_filter` -/
def parseSimple (s : Str) : Except Err Filter := whole (simpleFilter (term simpleLeaf (s.length + 1))) s

/-- filter.py:336-345 `parse` (unified syntax) -/
def parseUnified (s : Str) : Except Err Filter := whole (simpleFilter (term unifiedLeaf (s.length + 1))) s

/-- the text of a substring component -/
def Sub.text : Sub → Str
  | .initial s => s | .any s => s | .final s => s

/-- Python `sep.join(l)` (builtin) -/
def join (sep : Str) : List Str → Str
  | [] => []
  | [a] => a
  | a :: b :: t => a ++ sep ++ join sep (b :: t)

/-- filter.py:376-378: a list not starting with an initial component gets a leading empty string -/
def subsLead : List Sub → List Str
  | .initial _ :: _ => []
  | _ => [[]]

/-- filter.py:384 `sub_name` after the loop -/
def endsFinal (subs : List Sub) : Bool :=
  match subs.getLast? with
  | some (.final _) => true
  | _ => false

/-- filter.py:369-386: the substrings case. `subs.getComponentByPosition(0)` of an empty list raises in pyasn1; such a filter
is not well formed and the model prints `*` for it. -/
def printSubs (subs : List Sub) : Str :=
  let strs := subsLead subs ++ subs.map Sub.text
  let strs := if endsFinal subs = false ∧ strs.getLast? ≠ some [] then strs ++ [[]] else strs
  join (str "*") strs

/-- filter.py:406-420 -/
def printOpt (pre : Str) : Option Str → Str
  | none => []
  | some s => pre ++ s

/-- filter.py:348-423 `rfc4511_filter_to_rfc4515_string` and filter.py:426-431 `_reverse_filterset` -/
def printFilter : Filter → Str
  | .and l => str "(&" ++ printSet l ++ str ")"
  | .or l => str "(|" ++ printSet l ++ str ")"
  | .not f => str "(!" ++ printFilter f ++ str ")"
  | .equality a v => str "(" ++ a ++ str "=" ++ v ++ str ")"
  | .substrings a subs => str "(" ++ a ++ str "=" ++ printSubs subs ++ str ")"
  | .greaterOrEqual a v => str "(" ++ a ++ str ">=" ++ v ++ str ")"
  | .lessOrEqual a v => str "(" ++ a ++ str "<=" ++ v ++ str ")"
  | .present a => str "(" ++ a ++ str "=*" ++ str ")"
  | .approx a v => str "(" ++ a ++ str "~=" ++ v ++ str ")"
  | .extensible rule attr v dn =>
    str "(" ++ printOpt [] attr ++ (if dn then str ":dn" else []) ++ printOpt (str ":") rule ++ str ":=" ++ v ++ str ")"
where
  printSet : List Filter → Str
    | [] => []
    | f :: fs => printFilter f ++ printSet fs

end Laurelin
