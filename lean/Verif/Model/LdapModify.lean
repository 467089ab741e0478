import Verif.Model.Modify
/-!
`LDAP.modify` (laurelin/ldap/base.py:984-1050), `LDAPObject.modify` and `_local_modify`
(laurelin/ldap/ldapobject.py:343-428).
-/
namespace Laurelin
variable {V : Type} [DecidableEq V]

/-- One change of a modify request as it goes on the wire (base.py:1025-1037). -/
structure Change (V : Type) where
  op : ModOp
  attr : Str
  vals : List V
  deriving DecidableEq, Repr

/-- A modify request (base.py:1005-1040). Controls are not part of it (see controls model). -/
structure ModRequest (V : Type) where
  dn : Str
  changes : List (Change V)
  deriving DecidableEq, Repr

/-- The empty-list options of a connection (base.py: `error_empty_list`, `ignore_empty_list`,
`warn_empty_list`; the warning has no effect on the request and is not modelled). -/
structure EmptyOpts where
  error : Bool
  ignore : Bool
  deriving DecidableEq, Repr

/-- base.py:1212-1217 `_run_validation`: validators in order; `AttributeError` is taken to mean that the validator
has no such method and is ignored; any other exception propagates. -/
def runValidation {A : Type} : List (A → Except Err Unit) → A → Except Err Unit
  | [], _ => .ok ()
  | v :: vs, a =>
    match v a with
    | .ok _ => runValidation vs a
    | .error .attributeError => runValidation vs a
    | .error e => .error e

/-- base.py:1010-1038: the loop that builds the changes. Returns the caller's `Mod` objects as they are
left (base.py:1022 replaces `DELETE_ALL` by `[]` in place) and the changes or the exception.
An ADD whose values are `DELETE_ALL` (impossible to construct) makes base.py:1031 raise `TypeError`. -/
def buildChanges (o : EmptyOpts) : List (Mod V) → List (Mod V) × Except Err (List (Change V))
  | [] => ([], .ok [])
  | md :: rest =>
    let continue_ (md' : Mod V) (l : List V) :=
      let r := buildChanges o rest
      (md' :: r.1, match r.2 with
        | .error e => .error e
        | .ok cs => .ok (⟨md.op, md.attr, l⟩ :: cs))
    match md.op, md.vals with
    | .add, .deleteAll => (md :: rest, .error .typeError)
    | .add, .list l => continue_ md l
    | _, .deleteAll => continue_ { md with vals := .list [] } []
    | _, .list [] =>
      if o.error then (md :: rest, .error .ldapError)
      else if o.ignore then
        let r := buildChanges o rest
        (md :: r.1, r.2)
      else continue_ md []
    | _, .list l => continue_ md l

/-- Everything observable about a call: requests sent, the caller's Mods afterwards, result. -/
structure ModifyOut (V : Type) where
  sent : List (ModRequest V)
  mods : List (Mod V)
  result : Except Err Unit

/-- base.py:984-1050 `LDAP.modify`. `ctrls` is the outcome of `_process_ctrl_kwds` (base.py:1041, may
raise before sending); `server` is the outcome of `_success_result` for the request (base.py:1044, 365-383). -/
def ldapModify (unbound : Bool)
    (validators : List ((Str × List (Mod V) × Option (AttrsDict V)) → Except Err Unit))
    (o : EmptyOpts) (ctrls : Except Err Unit) (server : ModRequest V → Except Err Unit)
    (dn : Str) (mods : List (Mod V)) (current : Option (AttrsDict V)) : ModifyOut V :=
  if mods.length > 0 then
    if unbound then ⟨[], mods, .error .unbound⟩
    else
      match runValidation validators (dn, mods, current) with
      | .error e => ⟨[], mods, .error e⟩
      | .ok _ =>
        let r := buildChanges o mods
        match r.2 with
        | .error e => ⟨[], r.1, .error e⟩
        | .ok cs =>
          if cs.length > 0 then
            match ctrls with
            | .error e => ⟨[], r.1, .error e⟩
            | .ok _ => ⟨[⟨dn, cs⟩], r.1, server ⟨dn, cs⟩⟩
          else ⟨[], r.1, .ok ()⟩
  else ⟨[], mods, .ok ()⟩

section obj
variable (lower : Str → Str) (typeOf : TypeOf V)

/-- Mutating the list object stored under `attr` in place (`self[attr].extend(...)`, `del self[attr][i]`):
the key bookkeeping is untouched. -/
def AttrsDict.setInPlace (d : AttrsDict V) (attr : Str) (l : List V) : AttrsDict V :=
  match d.keys.get? (lower attr) with
  | some k => { d with data := d.data.set k l }
  | none => d

/-- ldapobject.py:424-428 `_delete_attr_value`. The list's own type name is the stored casing of `attr`;
registry lookups ignore case (C32), so it is looked up with `attr`. -/
def deleteAttrValue (d : AttrsDict V) (attr : Str) (v : V) : Except Err (AttrsDict V) :=
  match CIDict.getItem lower d attr with
  | .error e => .error e
  | .ok l =>
    match AttrValueList.remove typeOf attr l v with
    | .error e => .error e
    | .ok l' =>
      let d' := AttrsDict.setInPlace lower d attr l'
      if l'.isEmpty then CIDict.delItem lower d' attr else .ok d'

/-- ldapobject.py:414-418: `for val in mod.vals: try ... except ValueError: pass`. -/
def localDeleteVals (attr : Str) : AttrsDict V → List V → AttrsDict V × Except Err Unit
  | d, [] => (d, .ok ())
  | d, v :: vs =>
    match deleteAttrValue lower typeOf d attr v with
    | .ok d' => localDeleteVals attr d' vs
    | .error .valueError => localDeleteVals attr d vs
    | .error e => (d, .error e)

/-- ldapobject.py:401-422: one iteration of `_local_modify`. -/
def localModify1 (d : AttrsDict V) (md : Mod V) : AttrsDict V × Except Err Unit :=
  match md.op with
  | .add =>
    match md.vals with
    | .deleteAll => (d, .error .typeError)
    | .list l =>
      if AttrsDict.has lower d md.attr then
        (AttrsDict.setInPlace lower d md.attr (AttrsDict.getAttr lower d md.attr ++ l), .ok ())
      else (CIDict.setItem lower d md.attr l, .ok ())
  | .replace =>
    match md.vals with
    | .list (x :: xs) => (CIDict.setItem lower d md.attr (x :: xs), .ok ())
    | _ =>
      match CIDict.delItem lower d md.attr with
      | .ok d' => (d', .ok ())
      | .error e => (d, .error e)
  | .delete =>
    if AttrsDict.has lower d md.attr then
      match md.vals with
      | .list (x :: xs) => localDeleteVals lower typeOf md.attr d (x :: xs)
      | _ =>
        match CIDict.delItem lower d md.attr with
        | .ok d' => (d', .ok ())
        | .error e => (d, .error e)
    else (d, .ok ())

/-- ldapobject.py:398-422 `_local_modify`; an exception leaves the changes made so far. -/
def localModify : AttrsDict V → List (Mod V) → AttrsDict V × Except Err Unit
  | d, [] => (d, .ok ())
  | d, md :: rest =>
    match localModify1 lower typeOf d md with
    | (d', .ok _) => localModify d' rest
    | (d', .error e) => (d', .error e)

/-- ldapobject.py:343-355 `LDAPObject.modify`: server first, then local. Returns the object's
attributes afterwards, what was sent, the caller's Mods, and the result. -/
def objModify (unbound : Bool)
    (validators : List ((Str × List (Mod V) × Option (AttrsDict V)) → Except Err Unit))
    (o : EmptyOpts) (ctrls : Except Err Unit) (server : ModRequest V → Except Err Unit)
    (dn : Str) (d : AttrsDict V) (mods : List (Mod V)) : AttrsDict V × ModifyOut V :=
  let r := ldapModify unbound validators o ctrls server dn mods (some d)
  match r.result with
  | .error _ => (d, r)
  | .ok _ =>
    let l := localModify lower typeOf d r.mods
    (l.1, { r with result := l.2 })

/-- ldapobject.py:306-316 `refresh` on a connected object: `fetch` is `self.ldap_conn.get(self.dn, attrs)`, given as the
items of the object it returns (a server's entry has distinct attribute names). -/
def refresh (fetch : List Str → Except Err (PDict Str (List V))) (d : AttrsDict V) (attrs : List Str) :
    Except Err (AttrsDict V) :=
  match fetch attrs with
  | .error e => .error e
  | .ok got => .ok (CIDict.update lower d got)

/-- ldapobject.py:327-341 `refresh_missing`. -/
def refreshMissing (fetch : List Str → Except Err (PDict Str (List V))) (d : AttrsDict V) (attrs : List Str) :
    Except Err (AttrsDict V) :=
  let missing := attrs.filter (fun a => !AttrsDict.has lower d a)
  if missing.length > 0 then refresh lower fetch d missing else .ok d

/-- What an object-level call is subject to: the connection state and options, validators, controls, the object's DN. -/
structure ObjEnv (V : Type) where
  unbound : Bool
  validators : List ((Str × List (Mod V) × Option (AttrsDict V)) → Except Err Unit)
  opts : EmptyOpts
  ctrls : Except Err Unit
  dn : Str
  strict : Bool

/-- ldapobject.py:343-355, in the environment `env`. -/
def ObjEnv.modify (env : ObjEnv V) (server : ModRequest V → Except Err Unit) (d : AttrsDict V) (mods : List (Mod V)) :
    AttrsDict V × ModifyOut V :=
  objModify lower typeOf env.unbound env.validators env.opts env.ctrls server env.dn d mods

/-- A failed computation of the modlist: nothing sent, the object as it is. -/
def ObjEnv.failed (d : AttrsDict V) (e : Err) : AttrsDict V × ModifyOut V := (d, ⟨[], [], .error e⟩)

/-- ldapobject.py:357-369 `add_attrs`. -/
def ObjEnv.addAttrs (env : ObjEnv V) (fetch : List Str → Except Err (PDict Str (List V)))
    (server : ModRequest V → Except Err Unit) (d : AttrsDict V) (new : List (Str × Vals V)) : AttrsDict V × ModifyOut V :=
  match (if env.strict then .ok d else refreshMissing lower fetch d (new.map Prod.fst)) with
  | .error e => ObjEnv.failed d e
  | .ok d1 =>
    match addModlist lower typeOf d1 new with
    | .error e => ObjEnv.failed d1 e
    | .ok mods => env.modify lower typeOf server d1 mods

/-- ldapobject.py:371-381 `replace_attrs`. -/
def ObjEnv.replaceAttrs (env : ObjEnv V) (server : ModRequest V → Except Err Unit) (d : AttrsDict V)
    (new : List (Str × Vals V)) : AttrsDict V × ModifyOut V :=
  match modlist .replace (new.map (fun kv => (kv.1, .vals kv.2))) with
  | .error e => ObjEnv.failed d e
  | .ok mods => env.modify lower typeOf server d mods

/-- ldapobject.py:383-396 `delete_attrs`. -/
def ObjEnv.deleteAttrs (env : ObjEnv V) (fetch : List Str → Except Err (PDict Str (List V)))
    (server : ModRequest V → Except Err Unit) (d : AttrsDict V) (del : List (Str × Vals V)) : AttrsDict V × ModifyOut V :=
  match (if env.strict then .ok d else refreshMissing lower fetch d (del.map Prod.fst)) with
  | .error e => ObjEnv.failed d e
  | .ok d1 =>
    match deleteModlist lower typeOf d1 del with
    | .error e => ObjEnv.failed d1 e
    | .ok mods => env.modify lower typeOf server d1 mods

end obj
end Laurelin
