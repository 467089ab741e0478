import Verif.Model.ApiAttrs
/-!
# `add_or_mod_add_if_exists`, `add_or_mod_replace_if_exists`, `add_if_not_exists`, down to the octets (laurelin/ldap/base.py:841-903)

`get` and `add` are those of `Model/Api.lean`; `add_attrs` and `replace_attrs` of the object that `get` returned are those of `Model/OverWire.lean`. Simplifications: those of these models.
-/
namespace Laurelin
namespace Api
open Codec Asn1 Rfc4511 OverWire
section
variable {V R M S : Type} (C : Net.Codec UInt8 M) (view : M → Val) (peer : Peer S) (env : Env V R) (typeOf : TypeOf AVal)

/-- calls without keywords (base.py:361-363, controls.py:54-57): no controls -/
def Env.plain (env : Env V R) : Env V R := { env with ctrls := .ok none }

/-- the environment of an object that this connection made (base.py:1583, ldapobject.py:50-60): its DN is the one in the search result; its methods use the connection's settings -/
def Env.object (env : Env V R) (strict : Bool) (dn : Str) : OverWire.Env V R :=
  { obj := ⟨env.conn.unbound, env.modValidators, env.opts, .ok (), dn, strict⟩, ctrls := none, conn := env.conn, results := env.results, own := env.own, handleOwn := env.handleOwn }

/-- `self.add(dn, attrs_dict)`, base.py:861, 883, 903 -/
def addNew (l : Link M S) (dn : Str) (attrs : List (Str × List AVal)) : Link M S × Except Err (Ret R) := call C view peer env.plain l (.add dn attrs)

/-- base.py:857-861 and 879-883, after the call on the object -/
def afterUpdate (dn : Str) (attrs : List (Str × List AVal)) (dn' : Str) (a : After M S) : Link M S × Except Err (Ret R) :=
  match a.result with
  | .ok _ => (a.link, .ok (.object dn' a.obj))
  | .error .noResults => addNew C view peer env a.link dn attrs
  | .error x => (a.link, .error x)

/-- base.py:856-861 and 878-883: the object got is updated by `update`; `NoSearchResults`, from whichever call, leads to `add` -/
def getThenUpdate (strict : Bool) (update : OverWire.Env V R → Link M S → AttrsDict AVal → After M S) (l : Link M S) (dn : Str) (attrs : List (Str × List AVal)) : Link M S × Except Err (Ret R) :=
  match getOne C view peer env l dn none [] with
  | (l', .error .noResults) => addNew C view peer env l' dn attrs
  | (l', .error e) => (l', .error e)
  | (l', .ok (.ref _ _)) => (l', .error .attributeError)
  | (l', .ok (.entry e _)) =>
    afterUpdate C view peer env dn attrs e.1 (update (env.object strict e.1) l' (CIDict.update env.lower CIDict.empty e.2))

/-- base.py:841-861 `add_or_mod_add_if_exists`; `strict` is `self.strict_modify` -/
def addOrModAdd (strict : Bool) (l : Link M S) (dn : Str) (attrs : List (Str × List AVal)) : Link M S × Except Err (Ret R) :=
  getThenUpdate C view peer env strict (fun o l d => OverWire.addAttrs C view peer o env.lower typeOf l d attrs) l dn attrs

/-- base.py:863-883 `add_or_mod_replace_if_exists` -/
def addOrModReplace (strict : Bool) (l : Link M S) (dn : Str) (attrs : List (Str × List AVal)) : Link M S × Except Err (Ret R) :=
  getThenUpdate C view peer env strict (fun o l d => OverWire.replaceAttrs C view peer o env.lower typeOf l d (attrs.map (fun kv => (kv.1, .list kv.2)))) l dn attrs

/-- base.py:885-903 `add_if_not_exists`: what `get` gives is returned as it is -/
def addIfNotExists (l : Link M S) (dn : Str) (attrs : List (Str × List AVal)) : Link M S × Except Err (Ret R) :=
  match getOne C view peer env l dn none [] with
  | (l', .error .noResults) => addNew C view peer env l' dn attrs
  | (l', .error e) => (l', .error e)
  | (l', .ok (.ref u c)) => (l', .ok (.found [.ref u c]))
  | (l', .ok (.entry e _)) => (l', .ok (.object e.1 (CIDict.update env.lower CIDict.empty e.2)))

end
end Api
end Laurelin
