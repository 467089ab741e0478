import Verif.Model.LdapModify
/-!
# `LDAP.add` and the search-then-add patterns (laurelin/ldap/base.py:781-903)

The server's answers are parameters: `getAll` is the outcome of `self.get(dn)` given as the items of the object it returns.
Values passed as `attrs_dict` are lists (other values make `add` iterate characters; not modelled).
-/
namespace Laurelin
variable {V : Type} [DecidableEq V]

/-- An add request (base.py:809-824): the attributes exactly as given. -/
structure AddReq (V : Type) where
  dn : Str
  attrs : List (Str × List V)
  deriving DecidableEq, Repr

/-- Everything observable about `LDAP.add`: requests sent, the object returned. -/
structure AddOut (V : Type) where
  sent : List (AddReq V)
  result : Except Err (AttrsDict V)

/-- `LDAP.add`, base.py:794-837. `ctrls`: outcome of `_process_ctrl_kwds`; `validators` see the new object; `server`: outcome of sending the
request and reading its response. -/
def ldapAdd (lower : Str → Str) (unbound : Bool) (validators : List ((Str × AttrsDict V) → Except Err Unit)) (ctrls : Except Err Unit)
    (server : AddReq V → Except Err Unit) (dn : Str) (attrs : List (Str × List V)) : AddOut V :=
  if unbound then ⟨[], .error .unbound⟩
  else match ctrls with
    | .error e => ⟨[], .error e⟩
    | .ok _ =>
      let obj := CIDict.update lower CIDict.empty attrs
      match runValidation validators (dn, obj) with
      | .error e => ⟨[], .error e⟩
      | .ok _ =>
        match server ⟨dn, attrs⟩ with
        | .error e => ⟨[⟨dn, attrs⟩], .error e⟩
        | .ok _ => ⟨[⟨dn, attrs⟩], .ok obj⟩

/-- What an add_or_mod call did: modify and add requests sent, and the object returned. -/
structure PatOut (V : Type) where
  mods : List (ModRequest V)
  adds : List (AddReq V)
  result : Except Err (AttrsDict V)

/-- The `except NoSearchResults: return self.add(dn, attrs_dict)` part; `mods` were sent before. -/
def orAdd (mods : List (ModRequest V)) (a : AddOut V) : PatOut V := ⟨mods, a.sent, a.result⟩

/-- the shape shared by base.py:856-861 and 878-883: the object got is updated; `NoSearchResults` from either call leads to `add`. -/
def getThen (lower : Str → Str) (getAll : Except Err (PDict Str (List V))) (update : AttrsDict V → AttrsDict V × ModifyOut V) (add : AddOut V) : PatOut V :=
  match getAll with
  | .error .noResults => orAdd [] add
  | .error e => ⟨[], [], .error e⟩
  | .ok got =>
    let r := update (CIDict.update lower CIDict.empty got)
    match r.2.result with
    | .ok _ => ⟨r.2.sent, [], .ok r.1⟩
    | .error .noResults => orAdd r.2.sent add
    | .error e => ⟨r.2.sent, [], .error e⟩

/-- `add_or_mod_add_if_exists`, base.py:841-861 -/
def addOrModAdd (lower : Str → Str) (typeOf : TypeOf V) (env : ObjEnv V) (getAll : Except Err (PDict Str (List V)))
    (fetch : List Str → Except Err (PDict Str (List V))) (server : ModRequest V → Except Err Unit) (add : AddOut V)
    (attrs : List (Str × List V)) : PatOut V :=
  getThen lower getAll (fun d => env.addAttrs lower typeOf fetch server d (attrs.map fun kv => (kv.1, .list kv.2))) add

/-- `add_or_mod_replace_if_exists`, base.py:863-883 -/
def addOrModReplace (lower : Str → Str) (typeOf : TypeOf V) (env : ObjEnv V) (getAll : Except Err (PDict Str (List V)))
    (server : ModRequest V → Except Err Unit) (add : AddOut V) (attrs : List (Str × List V)) : PatOut V :=
  getThen lower getAll (fun d => env.replaceAttrs lower typeOf server d (attrs.map fun kv => (kv.1, .list kv.2))) add

/-- `add_if_not_exists`, base.py:885-903 -/
def addIfNotExists (lower : Str → Str) (getAll : Except Err (PDict Str (List V))) (add : AddOut V) : PatOut V :=
  match getAll with
  | .error .noResults => orAdd [] add
  | .error e => ⟨[], [], .error e⟩
  | .ok got => ⟨[], [], .ok (CIDict.update lower CIDict.empty got)⟩

end Laurelin
