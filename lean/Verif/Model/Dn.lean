import Verif.Model.SearchRequest
import Verif.Model.LdapModify
/-!
# Relative names, find, modify DN (laurelin/ldap/ldapobject.py:90-228, 432-498; laurelin/ldap/base.py:926-980)
-/
namespace Laurelin

/-- `LDAPObject` (ldapobject.py:50-59): `dn` becomes `None` after `delete`; `conn`: is it bound to a connection. -/
structure LObj where
  dn : Option Str
  conn : Bool
  attrs : AttrsDict Str
  scope : Scope := .sub
  rdnAttr : Option Str := none
  deriving DecidableEq, Repr

/-- ldapobject.py:90-97 `_rdn_attr` -/
def LObj.fullRdn (o : LObj) (rdn : Str) : Except Err Str :=
  if '=' ∉ rdn then
    match o.rdnAttr with
    | some a => .ok (a ++ str "=" ++ rdn)
    | none => .error .valueError
  else .ok rdn

/-- ldapobject.py:99-107 `rdn`; formatting `None` gives the text "None". -/
def LObj.rdn (o : LObj) (rdn : Str) : Except Err Str :=
  match o.fullRdn rdn with
  | .error e => .error e
  | .ok r => .ok (r ++ str "," ++ o.dn.getD (str "None"))

/-- ldapobject.py:114-134 `obj`. `scope`, `rdnAttr`: the keywords if given (`rdn_attr=None` given explicitly is `some none`); `tag` given or
not, and whether it is already taken on the connection (base.py:577-581). -/
def LObj.obj (lower : Str → Str) (o : LObj) (rdn : Str) (attrs : List (Str × List Str)) (scope : Option Scope) (rdnAttr : Option (Option Str))
    (tag : Option Bool) : Except Err LObj :=
  let new (dn : Str) : LObj :=
    ⟨some dn, o.conn, CIDict.update lower CIDict.empty attrs, scope.getD o.scope, rdnAttr.getD o.rdnAttr⟩
  if o.conn then
    match o.rdn rdn with
    | .error e => .error e
    | .ok dn => if tag = some true then .error .tagError else .ok (new dn)
  else if tag.isSome then .error .ldapError
  else match o.rdn rdn with
    | .error e => .error e
    | .ok dn => .ok (new dn)

/-- ldapobject.py:194-228 `find` (with `get_child`, 136-150, `search`, 179-192, and `LDAP.get`, base.py:600-603): the arguments of the
search it makes. `kwds`: the caller's keywords after the inherited ones were filled in (109-112). -/
def LObj.findArgs {V : Type} (o : LObj) (rdn : Str) (attrs : Option (List Str)) (kwds : PDict Str (Controls.Kwd V)) :
    Except Err (SearchArgs V) :=
  if o.conn = false then .error .runtimeError
  else match o.scope with
    | .base => .error .ldapError
    | .one =>
      match o.rdn rdn with
      | .error e => .error e
      | .ok dn => .ok { base := dn, scope := .base, attrs, limit := 2, kwds }
    | .sub =>
      match o.fullRdn rdn with
      | .error e => .error e
      | .ok r => .ok { base := o.dn.getD (str "None"), scope := o.scope, filter := some (str "(" ++ r ++ str ")"), fsyntax := some .standard, attrs, limit := 2, kwds }
    | .other => .error .valueError

/-- A modify DN request as it goes on the wire (base.py:944-949). -/
structure ModDnReq where
  dn : Str
  newRdn : Str
  deleteOld : Bool
  newSuperior : Option Str
  deriving DecidableEq, Repr

/-- What a modify DN call did. -/
structure ModDnOut where
  sent : List ModDnReq
  result : Except Err Unit

/-- `LDAP.mod_dn`, base.py:926-953 (`rename`, base.py:955-966, is it without a parent). `ctrls`: outcome of `_process_ctrl_kwds`; `server`:
outcome of sending and of `_success_result`. -/
def ldapModDn (unbound : Bool) (ctrls : Except Err Unit) (server : ModDnReq → Except Err Unit) (dn newRdn : Str) (clean : Bool)
    (parent : Option Str) : ModDnOut :=
  if unbound then ⟨[], .error .unbound⟩
  else match ctrls with
    | .error e => ⟨[], .error e⟩
    | .ok _ => ⟨[⟨dn, newRdn, clean, parent⟩], server ⟨dn, newRdn, clean, parent⟩⟩

/-- `re.split(r'(?<!\\),', s, 1)` (base.py:979): cut at the first comma whose preceding character is not a backslash; `prev`: the character
before is a backslash. -/
def splitUnescaped : Bool → Str → Option (Str × Str)
  | _, [] => none
  | prev, c :: t =>
    if c = ',' ∧ prev = false then some ([], t)
    else (splitUnescaped (c == '\\') t).map (fun q => (c :: q.1, q.2))

/-- `LDAP.move`, base.py:968-980: unpacking fails with `ValueError` when nothing was split. -/
def ldapMove (unbound : Bool) (ctrls : Except Err Unit) (server : ModDnReq → Except Err Unit) (dn newDn : Str) (clean : Bool) : ModDnOut :=
  match splitUnescaped false newDn with
  | none => ⟨[], .error .valueError⟩
  | some (rdn, parent) => ldapModDn unbound ctrls server dn rdn clean (some parent)

/-- ldapobject.py:466-469: the value is deleted locally and any exception of that is swallowed. `_delete_attr_value` (424-428) leaves the object as it was when it raises: `remove` raises before changing
anything, and the `del` of the emptied list finds its key. -/
def dropVal {V : Type} [DecidableEq V] (lower : Str → Str) (typeOf : TypeOf V) (d : AttrsDict V) (a : Str) (v : V) : AttrsDict V :=
  match deleteAttrValue lower typeOf d a v with
  | .ok d' => d'
  | .error _ => d

/-- ldapobject.py:471-474: the value is added locally unless it is there; `in` may raise (a value that does not fit the schema). -/
def putVal {V : Type} [DecidableEq V] (lower : Str → Str) (typeOf : TypeOf V) (d : AttrsDict V) (a : Str) (v : V) : AttrsDict V × Except Err Unit :=
  if AttrsDict.has lower d a = false then (CIDict.setItem lower d a [v], .ok ())
  else
    match AttrValueList.contains typeOf a (AttrsDict.getAttr lower d a) v with
    | .error e => (d, .error e)
    | .ok true => (d, .ok ())
    | .ok false => (AttrsDict.setInPlace lower d a (AttrsDict.getAttr lower d a ++ [v]), .ok ())

/-- ldapobject.py:464-469: the old RDN's value is deleted locally; the split is outside the `try`. -/
def cleanOld (lower : Str → Str) (typeOf : TypeOf Str) (d : AttrsDict Str) (curRdn : Str) : Except Err (AttrsDict Str) :=
  match splitFirst '=' curRdn with
  | none => .error .valueError
  | some (a, v) => .ok (dropVal lower typeOf d a v)

/-- ldapobject.py:470-474: the new RDN's value is added locally -/
def addNew (lower : Str → Str) (typeOf : TypeOf Str) (d : AttrsDict Str) (newRdn : Str) : AttrsDict Str × Except Err Unit :=
  match splitFirst '=' newRdn with
  | none => (d, .error .valueError)
  | some (a, v) => putVal lower typeOf d a v

/-- ldapobject.py:446-475 `mod_dn` (`rename`, 477-486, is it without a parent). -/
def LObj.modDn (lower : Str → Str) (typeOf : TypeOf Str) (unbound : Bool) (ctrls : Except Err Unit) (server : ModDnReq → Except Err Unit)
    (o : LObj) (newRdn : Str) (clean : Bool) (newParent : Option Str) : LObj × ModDnOut :=
  if o.conn = false then (o, ⟨[], .error .runtimeError⟩)
  else match o.dn with
    | none => (o, ⟨[], .error .attributeError⟩)
    | some dn =>
      match splitFirst ',' dn with
      | none => (o, ⟨[], .error .valueError⟩)
      | some (curRdn, curParent) =>
        let parent := newParent.getD curParent
        let r := ldapModDn unbound ctrls server dn newRdn clean (some parent)
        match r.result with
        | .error e => (o, ⟨r.sent, .error e⟩)
        | .ok _ =>
          match (if clean then cleanOld lower typeOf o.attrs curRdn else .ok o.attrs) with
          | .error e => (o, ⟨r.sent, .error e⟩)
          | .ok d =>
            match addNew lower typeOf d newRdn with
            | (d', .error e) => ({ o with attrs := d' }, ⟨r.sent, .error e⟩)
            | (d', .ok _) => ({ o with attrs := d', dn := some (newRdn ++ str "," ++ parent) }, ⟨r.sent, .ok ()⟩)

/-- ldapobject.py:488-498 `move` -/
def LObj.move (lower : Str → Str) (typeOf : TypeOf Str) (unbound : Bool) (ctrls : Except Err Unit) (server : ModDnReq → Except Err Unit)
    (o : LObj) (newDn : Str) (clean : Bool) : LObj × ModDnOut :=
  match splitFirst ',' newDn with
  | none => (o, ⟨[], .error .valueError⟩)
  | some (rdn, parent) => o.modDn lower typeOf unbound ctrls server rdn clean (some parent)

/-- ldapobject.py:432-444 `delete`; `server`: outcome of `LDAP.delete` (base.py:907-922). Returns the DNs a delete request was sent for. -/
def LObj.delete (o : LObj) (unbound : Bool) (ctrls : Except Err Unit) (server : Str → Except Err Unit) : LObj × List Str × Except Err Unit :=
  if o.conn = false then (o, [], .error .runtimeError)
  else match o.dn with
    | none => (o, [], .error .typeError)
    | some dn =>
      if unbound then (o, [], .error .unbound)
      else match ctrls with
        | .error e => (o, [], .error e)
        | .ok _ =>
          match server dn with
          | .error e => (o, [dn], .error e)
          | .ok _ => ({ o with dn := none, conn := false, attrs := CIDict.empty }, [dn], .ok ())

end Laurelin
