import Verif.Model.Controls
import Verif.Model.Filter
import Verif.Model.Strings
/-!
# Building a search request (laurelin/ldap/base.py:622-736) and choosing the base DN (base.py:330-345)
-/
namespace Laurelin
open Laurelin.Controls

/-- `Scope` constants (constants.py:60-70); `other`: any value that is none of them. -/
inductive Scope where
  | base | one | sub | other
  deriving DecidableEq, Repr

/-- `FilterSyntax` constants (constants.py:28-32); `other`: any other object. -/
inductive FSyntax where
  | standard | simple | unified | other
  deriving DecidableEq, Repr

/-- The search request as it goes on the wire (base.py:692-722): `deref` is the alias handling value. -/
structure SearchReq where
  base : Str
  scope : Scope
  deref : Nat
  limit : Nat
  timeout : Nat
  typesOnly : Bool
  filter : Filter
  attrs : List Str

/-- The arguments of `LDAP.search` (base.py:622-624); `none`: not given. `attrs` given as a single string (base.py:713-714) is the list of it. -/
structure SearchArgs (V : Type) where
  base : Str
  scope : Scope := .sub
  filter : Option Str := none
  attrs : Option (List Str) := none
  timeout : Option Nat := none
  limit : Nat := 0
  deref : Option Nat := none
  attrsOnly : Bool := false
  fetchRefs : Option Bool := none
  follow : Option Bool := none
  fsyntax : Option FSyntax := none
  kwds : PDict Str (Kwd V) := []

/-- What `search` uses of a connection: state, the defaults stored by the constructor (base.py:282-288), what the root DSE says, the
registered controls, and `LDAP.DEFAULT_FILTER`. -/
structure SearchConn (V R : Type) where
  unbound : Bool
  dfltTimeout : Nat
  dfltDeref : Nat
  dfltFetchRefs : Bool
  dfltFollow : Bool
  dfltSyntax : FSyntax
  dfltFilter : Str
  dfltCritical : Bool
  features : List Str
  supportedCtrls : List Str
  reg : Reg V R

/-- `LDAP.OID_OBJ_CLASS_ATTR` (base.py:180) -/
abbrev oidObjClassAttr : Str := str "1.3.6.1.4.1.4203.1.5.2"

/-- `_obj_kwds`, base.py:70 -/
def objKwds : List Str :=
  [str "attrs_dict", str "dn", str "ldap_conn", str "rdn_attr", str "relative_search_scope", str "self", str "tag"]

/-- base.py:699-706 -/
def parseFilter : FSyntax → Str → Except Err Filter
  | .unified, s => parseUnified s
  | .standard, s => parseStandard s
  | .simple, s => parseSimple s
  | .other, _ => .error .ldapError

/-- base.py:715-721: the requested attributes; `desc[0]` raises `IndexError` on an empty name. -/
def checkAttrs (features : List Str) : List Str → Except Err Unit
  | [] => .ok ()
  | [] :: _ => .error .indexError
  | (c :: _) :: l => if c = '@' ∧ oidObjClassAttr ∉ features then .error .ldapSupport else checkAttrs features l

/-- What `search` did: the request sent with its controls, the options of the handle and the keywords kept for the objects. -/
structure SearchSent (V : Type) where
  req : SearchReq
  ctrls : Option (List Wire)
  fetchRefs : Bool
  follow : Bool
  objKwds : PDict Str (Kwd V)

/-- `LDAP.search`, base.py:676-736, up to sending the request. -/
def ldapSearch {V R : Type} (c : SearchConn V R) (a : SearchArgs V) : Except Err (SearchSent V) :=
  if c.unbound then .error .unbound
  else
    let text := a.filter.getD c.dfltFilter
    let given := if a.filter.isNone then some FSyntax.standard else a.fsyntax
    match parseFilter (given.getD c.dfltSyntax) text with
    | .error e => .error e
    | .ok f =>
      let attrs := a.attrs.getD [['*']]
      match checkAttrs c.features attrs with
      | .error e => .error e
      | .ok _ =>
        let req : SearchReq := ⟨a.base, a.scope, a.deref.getD c.dfltDeref, a.limit, a.timeout.getD c.dfltTimeout, a.attrsOnly, f, attrs⟩
        match (if a.kwds.isEmpty then (Except.ok none, []) else processKwds c.reg (str "search") a.kwds c.supportedCtrls c.dfltCritical false) with
        | (.error e, _) => .error e
        | (.ok ctrls, kwds) =>
          if kwds.all (fun kv => objKwds.contains kv.1) then
            .ok ⟨req, ctrls, a.fetchRefs.getD c.dfltFetchRefs, a.follow.getD c.dfltFollow, kwds⟩
          else .error .typeError

/-- base.py:330-345: the base DN of a connection, from the constructor argument (or the class default) and the root DSE's attributes. -/
def chooseBase {A : Type} (given : Option A) (defaultNC namingContexts : List A) : Except Err A :=
  match given with
  | some b => .ok b
  | none =>
    match defaultNC with
    | b :: _ => .ok b
    | [] =>
      match namingContexts with
      | [] => .error .ldapError
      | [b] => .ok b
      | _ => .error .ldapError

end Laurelin
