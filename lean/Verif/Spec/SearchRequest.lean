import Verif.Model.SearchRequest
import Verif.Spec.Filter
import Verif.Spec.Controls
/-!
What a caller may expect of `LDAP.search` and of the base DN. Only data types of the model are used (arguments, connection, request);
filter texts are read by the grammar relations of `Spec.Filter`.
-/
namespace Laurelin.Spec
open Laurelin Laurelin.Controls

/-- the text denotes the filter, in the selected syntax -/
def ReadsAs : FSyntax → Str → Filter → Prop
  | .standard, s, f => StdText s f
  | .simple, s, f => LogicText SimpleLeaf s f
  | .unified, s, f => LogicText StdText s f
  | .other, _, _ => False

/-- an argument, or the connection's default when it is not given -/
def orDefault {A : Type} (given : Option A) (dflt : A) : A :=
  match given with
  | some a => a
  | none => dflt

/-- the filter of the search: the given text in the given (else the connection's) syntax; with no filter given, the default filter, always
in standard syntax -/
inductive FilterOf {V R : Type} (c : SearchConn V R) (a : SearchArgs V) (f : Filter) : Prop where
  | given (s : Str) : a.filter = some s → ReadsAs (orDefault a.fsyntax c.dfltSyntax) s f → FilterOf c a f
  | default : a.filter = none → ReadsAs .standard c.dfltFilter f → FilterOf c a f

/-- the attributes of the search: those given, else all user attributes -/
def attrsOf {V : Type} (a : SearchArgs V) : List Str := orDefault a.attrs [str "*"]

/-- a name that may be requested: not empty; `@objectClass` only if the server has the feature -/
def Requestable (features : List Str) (n : Str) : Prop := n ≠ [] ∧ (n.head? = some '@' → oidObjClassAttr ∈ features)

/-- keywords that go to the objects of the result -/
def ObjKeyword (k : Str) : Prop :=
  k ∈ [str "tag", str "rdn_attr", str "relative_search_scope", str "dn", str "attrs_dict", str "ldap_conn", str "self"]

/-- what a search sends, exactly -/
structure Asked {V R : Type} (c : SearchConn V R) (a : SearchArgs V) (s : SearchSent V) : Prop where
  base : s.req.base = a.base
  scope : s.req.scope = a.scope
  limit : s.req.limit = a.limit
  timeout : s.req.timeout = orDefault a.timeout c.dfltTimeout
  deref : s.req.deref = orDefault a.deref c.dfltDeref
  typesOnly : s.req.typesOnly = a.attrsOnly
  filter : FilterOf c a s.req.filter
  attrs : s.req.attrs = attrsOf a
  fetchRefs : s.fetchRefs = orDefault a.fetchRefs c.dfltFetchRefs
  follow : s.follow = orDefault a.follow c.dfltFollow
  ctrls : ∃ ws, Pairwise2 (Attached c.reg.byKwd (str "search") c.supportedCtrls c.dfltCritical) (a.kwds.filter (isControl c.reg.byKwd)) ws ∧
    s.ctrls = if ws = [] then none else some ws
  rest : s.objKwds = a.kwds.filter (fun kv => !isControl c.reg.byKwd kv)

/-- when a search may be sent at all -/
structure MaySend {V R : Type} (c : SearchConn V R) (a : SearchArgs V) : Prop where
  bound : c.unbound = false
  filter : ∃ f, FilterOf c a f
  attrs : ∀ n ∈ attrsOf a, Requestable c.features n
  ctrls : ∃ ws, Pairwise2 (Attached c.reg.byKwd (str "search") c.supportedCtrls c.dfltCritical) (a.kwds.filter (isControl c.reg.byKwd)) ws
  rest : ∀ kv ∈ a.kwds, isControl c.reg.byKwd kv = false → ObjKeyword kv.1

/-- what can be wrong with a search, and how it is reported -/
inductive Wrong {V R : Type} (c : SearchConn V R) (a : SearchArgs V) : Err → Prop where
  | unbound : c.unbound = true → Wrong c a .unbound
  | filter : (¬ ∃ f, FilterOf c a f) → Wrong c a .ldapError
  | emptyName : [] ∈ attrsOf a → Wrong c a .indexError
  | feature (n : Str) : n ∈ attrsOf a → n.head? = some '@' → oidObjClassAttr ∉ c.features → Wrong c a .ldapSupport
  | control (kv : Str × Kwd V) (e : Err) : kv ∈ a.kwds → Refused c.reg.byKwd (str "search") c.supportedCtrls c.dfltCritical kv e → Wrong c a e
  | keyword (kv : Str × Kwd V) : kv ∈ a.kwds → isControl c.reg.byKwd kv = false → ¬ ObjKeyword kv.1 → Wrong c a .typeError

/-- the base DN of a connection: the one given; else the server's default naming context; else its only naming context -/
inductive BaseOf {A : Type} (given : Option A) (dnc ncs : List A) : A → Prop where
  | given (b : A) : given = some b → BaseOf given dnc ncs b
  | default (b : A) (l : List A) : given = none → dnc = b :: l → BaseOf given dnc ncs b
  | only (b : A) : given = none → dnc = [] → ncs = [b] → BaseOf given dnc ncs b

end Laurelin.Spec
