import Verif.Model.Dn
import Verif.Model.Search
/-!
The relative methods of `LDAPObject` (laurelin/ldap/ldapobject.py:109-243): objects below an object, with the settings they inherit, and the
requests that are sent for them. The names are built by `LObj.rdn` (Model/Dn).
-/
namespace Laurelin.Navigate
open Laurelin Laurelin.Controls

/-- keyword arguments: the settings of new objects (`relative_search_scope`, `rdn_attr`, which may be given as `None`), `tag` (`None` is like not
giving it), and all others, except the named parameters of `LDAP.search` (`limit`, `filter_syntax`, ...: C29), which are not passed on here.
(No control can be registered under the names of the first three, C61, so they reach the object constructor.) -/
structure Kwds (V : Type) where
  scope : Option Scope := none
  rdnAttr : Option (Option Str) := none
  tag : Option Str := none
  rest : PDict Str (Kwd V) := []

/-- attributes as given or received -/
abbrev Items := List (Str × List Str)

/-- a request, as far as the relative methods determine it (its controls are those of C30) -/
inductive Req where
  | search (r : SearchReq)
  | add (dn : Str) (attrs : Items)
  | delete (dn : Str)
  | compare (dn attr value : Str)

/-- the connection: what `search` uses of it (Model/SearchRequest), the outcome of the validators for a new object, and the outcome of each request
(for a search the entries, in order) -/
structure NavEnv (V R : Type) where
  conn : SearchConn V R
  lower : Str → Str
  valid : Str → AttrsDict Str → Except Err Unit
  found : SearchReq → Except Err (List (Str × Items))
  added : Str → Items → Except Err Unit
  deleted : Str → Except Err Unit
  compared : Str → Str → Str → Except Err Bool

/-- requests sent so far, and the tagged objects (base.py:577-581), by their DN -/
structure NavState where
  sent : List Req
  tags : PDict Str Str

/-- ldapobject.py:109-112 `_set_obj_kwd_defaults` -/
def setDefaults {V : Type} (o : LObj) (k : Kwds V) : Kwds V :=
  { k with scope := some (k.scope.getD o.scope), rdnAttr := some (k.rdnAttr.getD o.rdnAttr) }

/-- `LDAP.obj` (base.py:560-582) and the constructor (ldapobject.py:50-59). `left`: the keywords besides the settings and `tag`; the constructor
takes none of them (`dn`, `attrs_dict`, `ldap_conn` and `self` are given already), so there is a `TypeError`. -/
def newObj {V : Type} (lower : Str → Str) (st : NavState) (dn : Str) (attrs : Items) (k : Kwds V) (left : PDict Str (Kwd V)) :
    NavState × Except Err LObj :=
  if left.isEmpty = false then (st, .error .typeError)
  else
    let o : LObj := ⟨some dn, true, CIDict.update lower CIDict.empty attrs, k.scope.getD .sub, k.rdnAttr.getD none⟩
    match k.tag with
    | none => (st, .ok o)
    | some t =>
      match st.tags.get? t with
      | some _ => (st, .error .tagError)
      | none => ({ st with tags := st.tags.set t dn }, .ok o)

/-- base.py:1571-1585: an object for each entry of a search, in order; an exception ends it -/
def newObjs {V : Type} (lower : Str → Str) (k : Kwds V) (left : PDict Str (Kwd V)) :
    NavState → List (Str × Items) → NavState × Except Err (List LObj)
  | st, [] => (st, .ok [])
  | st, e :: es =>
    match newObj lower st e.1 e.2 k left with
    | (st', .error x) => (st', .error x)
    | (st', .ok o) =>
      match newObjs lower k left st' es with
      | (st2, .error x) => (st2, .error x)
      | (st2, .ok os) => (st2, .ok (o :: os))

/-- `list(self.ldap_conn.search(...))` (base.py:622-736, 1567-1621; no references or referrals, see C56) -/
def listSearch {V R : Type} (env : NavEnv V R) (st : NavState) (a : SearchArgs V) (k : Kwds V) : NavState × Except Err (List LObj) :=
  match ldapSearch env.conn { a with kwds := k.rest } with
  | .error e => (st, .error e)
  | .ok s =>
    let st' := { st with sent := st.sent ++ [.search s.req] }
    match env.found s.req with
    | .error e => (st', .error e)
    | .ok es => newObjs env.lower k s.objKwds st' es

/-- `utils.get_one_result(list(...))`: base.py:602-603, ldapobject.py:225-226 -/
def oneSearch {V R : Type} (env : NavEnv V R) (st : NavState) (a : SearchArgs V) (k : Kwds V) : NavState × Except Err (List LObj) :=
  match listSearch env st a k with
  | (st', .error e) => (st', .error e)
  | (st', .ok l) =>
    match Search.getOneResult l with
    | .error e => (st', .error e)
    | .ok o => (st', .ok [o])

/-- a call of a relative method with its arguments -/
inductive Call (V : Type) where
  | obj (rdn : Str) (attrs : Items) (k : Kwds V)
  | getChild (rdn : Str) (attrs : Option (List Str)) (k : Kwds V)
  | addChild (rdn : Str) (attrs : Items) (k : Kwds V)
  | deleteChild (rdn : Str) (ctrls : PDict Str (Kwd V))
  | search (filter : Option Str) (attrs : Option (List Str)) (k : Kwds V)
  | find (rdn : Str) (attrs : Option (List Str)) (k : Kwds V)
  | compare (attr value : Str)

/-- what a call returns: objects, nothing, or the verdict of a comparison -/
inductive Ret where
  | objs (l : List LObj)
  | done
  | verdict (b : Bool)

/-- the objects of a result -/
def Ret.objects : Ret → List LObj
  | .objs l => l
  | _ => []

/-- a result as a return value -/
def ret (r : NavState × Except Err (List LObj)) : NavState × Except Err Ret :=
  match r with
  | (st, .error e) => (st, .error e)
  | (st, .ok l) => (st, .ok (.objs l))

/-- `LDAP.add` (base.py:781-837) with the keywords of `add_child` (ldapobject.py:152-165). The object is built, and tagged, before the request
is sent. -/
def addObj {V R : Type} (env : NavEnv V R) (st : NavState) (dn : Str) (attrs : Items) (k : Kwds V) : NavState × Except Err Ret :=
  if env.conn.unbound then (st, .error .unbound)
  else
    match processKwds env.conn.reg (str "add") k.rest env.conn.supportedCtrls env.conn.dfltCritical false with
    | (.error e, _) => (st, .error e)
    | (.ok _, left) =>
      match newObj env.lower st dn attrs k left with
      | (st1, .error e) => (st1, .error e)
      | (st1, .ok o) =>
        match env.valid dn o.attrs with
        | .error e => (st1, .error e)
        | .ok _ =>
          let st2 := { st1 with sent := st1.sent ++ [.add dn attrs] }
          match env.added dn attrs with
          | .error e => (st2, .error e)
          | .ok _ => (st2, .ok (.objs [o]))

/-- `LDAP.delete`, base.py:907-922 -/
def deleteDn {V R : Type} (env : NavEnv V R) (st : NavState) (dn : Str) (ctrls : PDict Str (Kwd V)) : NavState × Except Err Ret :=
  if env.conn.unbound then (st, .error .unbound)
  else
    match processKwds env.conn.reg (str "delete") ctrls env.conn.supportedCtrls env.conn.dfltCritical true with
    | (.error e, _) => (st, .error e)
    | (.ok _, _) =>
      let st' := { st with sent := st.sent ++ [.delete dn] }
      match env.deleted dn with
      | .error e => (st', .error e)
      | .ok _ => (st', .ok .done)

/-- `LDAP.compare`, base.py:738-779, without controls -/
def compareDn {V R : Type} (env : NavEnv V R) (st : NavState) (dn attr value : Str) : NavState × Except Err Ret :=
  if env.conn.unbound then (st, .error .unbound)
  else
    let st' := { st with sent := st.sent ++ [.compare dn attr value] }
    match env.compared dn attr value with
    | .error e => (st', .error e)
    | .ok b => (st', .ok (.verdict b))

/-- the relative methods: `obj` ldapobject.py:114-134, `get_child` 136-150, `add_child` 152-165, `delete_child` 167-177, `search` 179-192, `find`
194-228, `compare` 230-241; `_require_ldap` 84-86. An object with a connection has a DN (432-444); formatting `None` would give "None". -/
def call {V R : Type} (env : NavEnv V R) (st : NavState) (o : LObj) : Call V → NavState × Except Err Ret
  | .obj rdn attrs k =>
    let k' := setDefaults o k
    if o.conn then
      match o.rdn rdn with
      | .error e => (st, .error e)
      | .ok dn =>
        match newObj env.lower st dn attrs k' k'.rest with
        | (st', .error e) => (st', .error e)
        | (st', .ok n) => (st', .ok (.objs [n]))
    else if k.tag.isSome then (st, .error .ldapError)
    else
      match o.rdn rdn with
      | .error e => (st, .error e)
      | .ok dn =>
        match newObj env.lower st dn attrs k' k'.rest with
        | (st', .error e) => (st', .error e)
        | (st', .ok n) => (st', .ok (.objs [{ n with conn := false }]))
  | .getChild rdn attrs k =>
    if o.conn = false then (st, .error .runtimeError)
    else match o.rdn rdn with
      | .error e => (st, .error e)
      | .ok dn => ret (oneSearch env st { base := dn, scope := .base, attrs, limit := 2 } (setDefaults o k))
  | .addChild rdn attrs k =>
    if o.conn = false then (st, .error .runtimeError)
    else match o.rdn rdn with
      | .error e => (st, .error e)
      | .ok dn => addObj env st dn attrs (setDefaults o k)
  | .deleteChild rdn ctrls =>
    if o.conn = false then (st, .error .runtimeError)
    else match o.rdn rdn with
      | .error e => (st, .error e)
      | .ok dn => deleteDn env st dn ctrls
  | .search filter attrs k =>
    if o.conn = false then (st, .error .runtimeError)
    else ret (listSearch env st { base := o.dn.getD (str "None"), scope := o.scope, filter, attrs } (setDefaults o k))
  | .find rdn attrs k =>
    match o.findArgs rdn attrs k.rest with
    | .error e => (st, .error e)
    | .ok a => ret (oneSearch env st a (setDefaults o k))
  | .compare attr value =>
    if o.conn = false then (st, .error .runtimeError)
    else compareDn env st (o.dn.getD (str "None")) attr value

end Laurelin.Navigate
