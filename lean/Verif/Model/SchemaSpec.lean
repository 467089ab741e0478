import Verif.Model.Syntax
import Verif.Model.Schema
import Verif.Model.Prep
/-!
Reading schema specifications: `AttributeType(spec)` (laurelin/ldap/attributetype.py:67-134), `ObjectClass(spec)`
(laurelin/ldap/objectclass.py:81-109) and the expressions of laurelin/ldap/rfc4512.py. Warnings are not modelled.
-/
namespace Laurelin.SchemaSpec
open Laurelin.Syntax

/-! ### Expressions with named groups (Python's `re`) -/

/-- All ways to split a text so that the expression matches the first part. -/
def ends (r : Rx) : Str → List (Str × Str)
  | [] => if r.nullable then [([], [])] else []
  | c :: t =>
    (if r.nullable then [([], c :: t)] else []) ++ (ends (r.deriv c) t).map (fun p => (c :: p.1, p.2))

/-- Expressions with named groups, which here never occur under a repetition. -/
inductive G where
  | rx (r : Rx)
  | grp (name : Str) (r : Rx)    -- `(?P<name>r)`
  | seq (a b : G)
  | opt (a : G)                  -- `(?:a)?`

abbrev Caps := List (Str × Str)

/-- All ways to match a prefix: the captured texts and the rest. Python tries them in a certain order and takes the first that
satisfies the anchors; the order is not modelled, since all complete matches capture the same texts (`Props/SchemaSpec.lean`). -/
def G.run : G → Str → List (Caps × Str)
  | .rx r, s => (ends r s).map (fun p => ([], p.2))
  | .grp n r, s => (ends r s).map (fun p => ([(n, p.1)], p.2))
  | .seq a b, s => (a.run s).flatMap (fun p => (b.run p.2).map (fun q => (p.1 ++ q.1, q.2)))
  | .opt a, s => a.run s ++ [([], s)]

def G.cat : List G → G
  | [] => .rx .eps
  | a :: l => .seq a (G.cat l)

/-- `re.compile(re_anchor(g)).match(s)` (utils.py:13-14): `$` also matches before a final newline. -/
def G.matchAnchored (g : G) (s : Str) : Option Caps :=
  ((g.run s).find? (fun p => p.2 == [] || p.2 == ['\n'])).map (·.1)

/-- `m.group(name)`: `None` when the group took no part -/
def group (name : Str) (m : Caps) : Option Str := PDict.get? m name

/-! ### rfc4512.py -/

/-- rfc4512.py:23 -/
def qdescr : Rx := .cat [.lit ['\''], descr, .lit ['\'']]
/-- rfc4512.py:24 -/
def qdescrlist : Rx := .cat [qdescr, .star (.cat [sp, qdescr])]
/-- rfc4512.py:25 -/
def qdescrs : Rx := .alt qdescr (.cat [.lit ['('], wsp, qdescrlist, wsp, .lit [')']])
/-- rfc4512.py:27-31 -/
def dstring : Rx :=
  .plus (.any [.cat [.lit (str "\\5"), .cls (fun c => c == 'C' || c == 'c')], .lit (str "\\27"), .cls (fun c => !(c == '\'' || c == '\\'))])
/-- rfc4512.py:32 -/
def qdstring : Rx := .cat [.lit ['\''], dstring, .lit ['\'']]
/-- rfc4512.py:33 -/
def qdstringlist : Rx := .cat [qdstring, .star (.cat [sp, qdstring])]
/-- rfc4512.py:34 -/
def qdstrings : Rx := .alt qdstring (.cat [.lit ['('], wsp, qdstringlist, wsp, .lit [')']])
/-- rfc4512.py:36 -/
def oidlist : Rx := .cat [oid, .star (.cat [wsp, .lit ['$'], wsp, oid])]
/-- rfc4512.py:37 -/
def oids : Rx := .alt oid (.cat [.lit ['('], wsp, oidlist, wsp, .lit [')']])
/-- rfc4512.py:39 -/
def noidlen : Rx := .cat [numericoid, .opt (.cat [.lit ['{'], .plus (.cls digit), .lit ['}']])]
/-- rfc4512.py:41 -/
def xstring : Rx := .cat [.lit (str "X-"), .plus (.cls (fun c => alpha c || c == '_' || c == '-'))]
/-- rfc4512.py:42; its group is never read -/
def extensions : Rx := .opt (.cat [.lit [' '], xstring, .lit [' '], qdstrings])

/-- The parts of a description after the OID. All are optional. -/
inductive Item where
  | kv (key name : Str) (val : Rx)          -- `(?:SP KEY SP (?P<name>val))?`
  | flag (key name : Str)                   -- `(?P<name>SP KEY)?`
  | choice (keys : List Str) (name : Str)   -- `(?:SP (?P<name>KEY1|KEY2|…))?`

def Item.g : Item → G
  | .kv key name val => .opt (.cat [.rx sp, .rx (.lit key), .rx sp, .grp name val])
  | .flag key name => .opt (.grp name (.cat [sp, .lit key]))
  | .choice keys name => .opt (.cat [.rx sp, .grp name (.any (keys.map .lit))])

/-- What the description expressions have in common. -/
def description (items : List Item) : G :=
  .cat ([.rx (.lit ['(']), .rx wsp, .grp (str "oid") numericoid] ++ items.map Item.g ++ [.rx extensions, .rx wsp, .rx (.lit [')'])])

/-- rfc4512.py:44-55 ObjectClassDescription -/
def ocItems : List Item :=
  [.kv (str "NAME") (str "name") qdescrs,
   .kv (str "DESC") (str "desc") qdstring,
   .flag (str "OBSOLETE") (str "obsolete"),
   .kv (str "SUP") (str "superclass") oids,
   .choice [str "ABSTRACT", str "STRUCTURAL", str "AUXILIARY"] (str "kind"),
   .kv (str "MUST") (str "must") oids,
   .kv (str "MAY") (str "may") oids]

/-- rfc4512.py:57-73 AttributeTypeDescription -/
def atItems : List Item :=
  [.kv (str "NAME") (str "name") qdescrs,
   .kv (str "DESC") (str "desc") qdstring,
   .flag (str "OBSOLETE") (str "obsolete"),
   .kv (str "SUP") (str "supertype") oid,
   .kv (str "EQUALITY") (str "equality") oid,
   .kv (str "ORDERING") (str "ordering") oid,
   .kv (str "SUBSTR") (str "substr") oid,
   .kv (str "SYNTAX") (str "syntax") noidlen,
   .flag (str "SINGLE-VALUE") (str "single_value"),
   .flag (str "COLLECTIVE") (str "collective"),
   .flag (str "NO-USER-MODIFICATION") (str "no_user_mod"),
   .kv (str "USAGE") (str "usage")
     (.any ([str "userApplications", str "directoryOperation", str "distributedOperation", str "dSAOperation"].map .lit))]

/-! ### Reading -/

/-- `re.sub(r'\s+', ' ', s)`; the flag says whether the previous character belongs to the current run. `\s` is `str.isspace`. -/
def squeeze : Bool → Str → Str
  | _, [] => []
  | inRun, c :: t =>
    if inClass pySpace c then (if inRun then squeeze true t else ' ' :: squeeze true t)
    else c :: squeeze false t

/-- utils.py:53-55 `collapse_whitespace`, and the second `.strip()` of attributetype.py:68 and objectclass.py:82 -/
def collapse (s : Str) : Str := pyStrip (inClass pySpace) (pyStrip (inClass pySpace) (squeeze false s))

/-- protoutils.py:58-62 `parse_qdescrs` -/
def parseQdescrs : Option Str → List Str
  | none => []
  | some spec =>
    (pySplit ' ' (pyStrip (fun c => c == '(' || c == ' ' || c == ')') spec)).map (pyStrip (fun c => c == '\''))

/-- objectclass.py:37-42 `_parse_oids` -/
def parseOids : Option Str → List Str
  | none => []
  | some [] => []
  | some (c :: t) =>
    (pySplit '$' (pyStrip (fun c => c == '(' || c == ')' || c == ' ') (c :: t))).map (pyStrip (inClass pySpace))

/-- objectclass.py:48-57, the body of the loop: a name is kept; a numeric OID is replaced by the names of the registered type, or left out with a
warning. `types` is the registry of attribute types. -/
def attrNames {E : Type} (lower : Str → Str) (types : Schema.Reg E) (a : Str) : Except Err (List Str) :=
  match Schema.numeric a with
  | .error e => .error e
  | .ok false => .ok [a]
  | .ok true => match Schema.Reg.find lower types a with
    | .ok (.elem e) => .ok e.names
    | .ok (.dflt n) => .ok [n]
    | .error .keyError => .ok []
    | .error e => .error e

/-- objectclass.py:45-58 `_parse_attr_list` -/
def parseAttrs {E : Type} (lower : Str → Str) (types : Schema.Reg E) : List Str → Except Err (List Str)
  | [] => .ok []
  | a :: l => do
    let here ← attrNames lower types a
    let rest ← parseAttrs lower types l
    .ok (here ++ rest)

/-- `int(digits)` (Python builtin) -/
def intOf (s : Str) : Nat := s.foldl (fun n c => 10 * n + (c.toNat - '0'.toNat)) 0

/-- The attributes a specification sets on an `AttributeType` instance; `none`: the instance attribute is not set, so that reading it goes to
the supertype (attributetype.py:162-167). `syntaxLength` `-1` is `none` inside. -/
structure ATFields where
  oid : Str
  names : List Str
  supertype : Option Str
  equalityOid : Option (Option Str)
  syntaxOid : Option (Option Str)
  syntaxLength : Option (Option Nat)
  obsolete : Option Bool
  singleValue : Option Bool
  collective : Option Bool
  noUserMod : Option Bool
  usage : Option Str
  deriving DecidableEq, Repr

/-- `if x is not None: self.a = f(x)` / `elif not self.supertype: self.a = default`; the supertype, when given, is not empty -/
def ownOr {α : Type} (stated : Option α) (supertype : Option Str) (default : α) : Option α :=
  match stated with
  | some x => some x
  | none => if supertype.isSome then none else some default

/-- attributetype.py:96-102 -/
def syntaxParts (s : Str) : Str × Option Nat :=
  match pySplit '{' s with
  | [] => ([], none)
  | [o] => (o, none)
  | o :: l :: _ => (o, some (intOf (pyStrip (fun c => c == '}') l)))

/-- attributetype.py:73-134: from the groups of the match -/
def attributeTypeOf (m : Caps) : Except Err ATFields :=
  match group (str "oid") m with
  | none => .error .ldapSchema
  | some oid =>
    let names := parseQdescrs (group (str "name") m)
    if names = [] then .error .ldapSchema
    else
      let sup := (group (str "supertype") m).map (pyStrip (inClass pySpace))
      let syntaxG := (group (str "syntax") m).map syntaxParts
      .ok {
        oid := oid
        names := names
        supertype := sup
        equalityOid := ownOr ((group (str "equality") m).map some) sup none
        syntaxOid := ownOr (syntaxG.map (fun p => some p.1)) sup none
        syntaxLength := ownOr (syntaxG.map (·.2)) sup none
        obsolete := ownOr ((group (str "obsolete") m).map (fun x => x ≠ [])) sup false
        singleValue := ownOr ((group (str "single_value") m).map (fun x => x ≠ [])) sup false
        collective := ownOr ((group (str "collective") m).map (fun x => x ≠ [])) sup false
        noUserMod := ownOr ((group (str "no_user_mod") m).map (fun x => x ≠ [])) sup false
        usage := ownOr (group (str "usage") m) sup (str "userApplications") }

/-- attributetype.py:67-134 `AttributeType.__init__` -/
def attributeType (spec : Str) : Except Err ATFields :=
  match (description atItems).matchAnchored (collapse spec) with
  | none => .error .ldapSchema
  | some m => attributeTypeOf m

/-- What `ObjectClass.__init__` sets. -/
structure OCFields where
  oid : Str
  names : List Str
  superclasses : List Str
  kind : Str
  obsolete : Bool
  must : List Str
  may : List Str
  deriving DecidableEq, Repr

/-- objectclass.py:87-106: from the groups of the match -/
def objectClassOf {E : Type} (lower : Str → Str) (types : Schema.Reg E) (m : Caps) : Except Err OCFields := do
  let must ← parseAttrs lower types (parseOids (group (str "must") m))
  let may ← parseAttrs lower types (parseOids (group (str "may") m))
  .ok {
    oid := (group (str "oid") m).getD []
    names := parseQdescrs (group (str "name") m)
    superclasses := parseOids (group (str "superclass") m)
    kind := (group (str "kind") m).getD (str "STRUCTURAL")
    obsolete := ((group (str "obsolete") m).map (fun x => decide (x ≠ []))).getD false
    must := must
    may := may }

/-- objectclass.py:81-109 `ObjectClass.__init__` -/
def objectClass {E : Type} (lower : Str → Str) (types : Schema.Reg E) (spec : Str) : Except Err OCFields :=
  match (description ocItems).matchAnchored (collapse spec) with
  | none => .error .ldapSchema
  | some m => objectClassOf lower types m

end Laurelin.SchemaSpec
