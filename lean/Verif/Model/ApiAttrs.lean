import Verif.Model.Api
/-!
# `add_attrs`, `delete_attrs`, `replace_attrs` of a connection, down to the octets (laurelin/ldap/base.py:1052-1124)

Each makes a modlist and calls `modify`, both of `Model/Api.lean`. Simplifications: those of `Model/Api.lean`; values given are lists (or `DELETE_ALL` for delete and replace); if `get` gives a
reference handle instead of an object, the call ends with a `TypeError` (modify.py:95-96; `DeleteModlist` does so when it looks up the first name, modify.py:126).
-/
namespace Laurelin
namespace Api
open Codec Asn1 Rfc4511 OverWire
section
variable {V R M S : Type} (C : Net.Codec UInt8 M) (view : M → Val) (peer : Peer S) (env : Env V R) (typeOf : TypeOf AVal)

/-- the attributes of the object that `get` returns (base.py:1583, ldapobject.py:50-62, utils.py:126-129) -/
def objectOf (lower : Str → Str) : Search.Item Received.Entry R → Except Err (AttrsDict AVal)
  | .entry e _ => .ok (CIDict.update lower CIDict.empty e.2)
  | .ref _ _ => .error .typeError

/-- `self.get(dn, list(attrs_dict.keys()))`, base.py:1070, 1096, 1122 -/
def currentFor (l : Link M S) (dn : Str) (names : List Str) : Link M S × Except Err (AttrsDict AVal) :=
  match getOne C view peer env l dn (some names) [] with
  | (l', .error e) => (l', .error e)
  | (l', .ok i) => (l', objectOf env.lower i)

/-- `self.modify(dn, modlist, current, **ctrl_kwds)`, base.py:1074, 1100, 1124, unless making the modlist raised -/
def modifyWith (l : Link M S) (dn : Str) (current : Option (AttrsDict AVal)) : Except Err (List (Mod AVal)) → Link M S × Except Err (Ret R)
  | .error e => (l, .error e)
  | .ok mods => call C view peer env l (.modify dn mods current)

/-- base.py:1052-1074 `add_attrs`; `strict` is `self.strict_modify` -/
def addAttrs (strict : Bool) (l : Link M S) (dn : Str) (new : List (Str × List AVal)) (current : Option (AttrsDict AVal)) : Link M S × Except Err (Ret R) :=
  match current with
  | some d => modifyWith C view peer env l dn (some d) (addModlist env.lower typeOf d (new.map (fun kv => (kv.1, .list kv.2))))
  | none =>
    if strict then modifyWith C view peer env l dn none (modlist .add (new.map (fun kv => (kv.1, .vals (.list kv.2)))))
    else match currentFor C view peer env l dn (new.map Prod.fst) with
      | (l', .error e) => (l', .error e)
      | (l', .ok d) => modifyWith C view peer env l' dn (some d) (addModlist env.lower typeOf d (new.map (fun kv => (kv.1, .list kv.2))))

/-- base.py:1076-1100 `delete_attrs` -/
def deleteAttrs (strict : Bool) (l : Link M S) (dn : Str) (del : List (Str × Vals AVal)) (current : Option (AttrsDict AVal)) : Link M S × Except Err (Ret R) :=
  match current with
  | some d => modifyWith C view peer env l dn (some d) (deleteModlist env.lower typeOf d del)
  | none =>
    if strict then modifyWith C view peer env l dn none (modlist .delete (del.map (fun kv => (kv.1, .vals kv.2))))
    else match currentFor C view peer env l dn (del.map Prod.fst) with
      | (l', .error e) => (l', .error e)
      | (l', .ok d) => modifyWith C view peer env l' dn (some d) (deleteModlist env.lower typeOf d del)

/-- base.py:1102-1124 `replace_attrs`: the object is fetched only for the validators -/
def replaceAttrs (strict : Bool) (l : Link M S) (dn : Str) (new : List (Str × Vals AVal)) (current : Option (AttrsDict AVal)) : Link M S × Except Err (Ret R) :=
  if current.isNone && !env.modValidators.isEmpty && !strict then
    match currentFor C view peer env l dn (new.map Prod.fst) with
    | (l', .error e) => (l', .error e)
    | (l', .ok d) => modifyWith C view peer env l' dn (some d) (modlist .replace (new.map (fun kv => (kv.1, .vals kv.2))))
  else modifyWith C view peer env l dn current (modlist .replace (new.map (fun kv => (kv.1, .vals kv.2))))

end
end Api
end Laurelin
