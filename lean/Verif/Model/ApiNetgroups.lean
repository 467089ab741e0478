import Verif.Model.ApiObject
import Verif.Model.ApiAttrs
import Verif.Model.Netgroups
/-!
# The netgroups extension, down to the octets (laurelin/extensions/netgroups.py:139-295)

Member lists and triples are those of `Model/Netgroups.lean`, the calls on the connection those of `Model/ApiAttrs.lean` and `Model/ApiObject.lean`. Simplifications: those of these models; the object tagged
`netgroup_base` is a parameter (`Model/Tags.lean`), and so are the names of the netgroup attributes (`oc.must + oc.may`, 127-129, `Model/ObjectSchema.lean`).
-/
namespace Laurelin
namespace Api
open Codec Asn1 Rfc4511 OverWire

/-- `add_…`, `replace_…`, `delete_…` -/
inductive NgChange where
  | add | replace | delete
  deriving DecidableEq, Repr

/-- `_member_user_list_to_attrs`, `_member_host_list_to_attrs` (netgroups.py:437-494) -/
def ngAttrs : Netgroups.Field → Netgroups.Members → Option Str → Except Err (PDict Str (List Str))
  | .user => Netgroups.userAttrs
  | .host => Netgroups.hostAttrs

/-- `_netgroup_filter` netgroups.py:408-409 -/
def ngFilter (filter : Str) : Str := str "(&(objectClass=nisNetgroup)" ++ filter ++ str ")"

section
variable {V R M S : Type} (C : Net.Codec UInt8 M) (view : M → Val) (peer : Peer S) (env : Env V R) (typeOf : TypeOf AVal)

/-- `add_users` netgroups.py:231-240, `add_hosts` 242-251, `replace_users` 253-262, `replace_hosts` 264-273, `delete_users` 275-284, `delete_hosts` 286-295 -/
def ngChange (how : NgChange) (fld : Netgroups.Field) (strict : Bool) (l : Link M S) (dn : Str) (members : Netgroups.Members) (domain : Option Str) : Link M S × Except Err (Ret R) :=
  match ngAttrs fld members domain with
  | .error e => (l, .error e)
  | .ok attrs =>
    match how with
    | .add => addAttrs C view peer env typeOf strict l dn (attrs.map (fun kv => (kv.1, kv.2.map .text))) none
    | .replace => replaceAttrs C view peer env strict l dn (attrs.map (fun kv => (kv.1, .list (kv.2.map .text)))) none
    | .delete => deleteAttrs C view peer env typeOf strict l dn (attrs.map (fun kv => (kv.1, .list (kv.2.map .text)))) none

/-- `get` netgroups.py:140-153: `find` on the tagged object, if there is one. A reference handle in place of an object has no attributes, so that reading them raises `AttributeError`. -/
def ngGet (base : Except Err Obj) (attrs : List Str) (l : Link M S) (cn : Str) : Link M S × Except Err Obj :=
  match base with
  | .error e => (l, .error e)
  | .ok o =>
    let t := act C view peer env typeOf false l o (.find cn (some attrs))
    match t.result with
    | .error e => (t.link, .error e)
    | .ok (.objs [some n]) => (t.link, .ok n)
    | .ok _ => (t.link, .error .attributeError)

/-- `search` netgroups.py:155-169, the results as the caller has them after iterating over all -/
def ngSearch (base : Except Err Obj) (attrs : List Str) (l : Link M S) (filter : Str) : Link M S × Except Err (List (Option Obj)) :=
  match base with
  | .error e => (l, .error e)
  | .ok o =>
    let t := act C view peer env typeOf false l o (.search (some (ngFilter filter)) (some attrs))
    match t.result with
    | .error e => (t.link, .error e)
    | .ok (.objs ns) => (t.link, .ok ns)
    | .ok _ => (t.link, .ok [])

/-- the loop of `_extract_triple_field`, netgroups.py:428-434; matching a pattern for text against octets raises `TypeError` -/
def ngFields (fld : Netgroups.Field) : List AVal → Except Err (List Str)
  | [] => .ok []
  | .raw _ :: _ => .error .typeError
  | .text t :: ts =>
    match Netgroups.tripleFields t with
    | none => .error .ldapError
    | some q =>
      match ngFields fld ts with
      | .error e => .error e
      | .ok l => .ok (fld.of q :: l)

/-- netgroups.py:182-183, 212-213: `users += self.get_users(member, True)` for every member; a name that is not text raises `TypeError` (`'=' not in rdn`, ldapobject.py:91) -/
def ngAll (expand : Link M S → Str → Link M S × Except Err (List Str)) : Link M S → List Str → List AVal → Link M S × Except Err (List Str)
  | l, names, [] => (l, .ok names)
  | l, _, .raw _ :: _ => (l, .error .typeError)
  | l, names, .text m :: ms =>
    match expand l m with
    | (l', .error e) => (l', .error e)
    | (l', .ok more) => ngAll expand l' (names ++ more) ms

/-- `get_obj_users` netgroups.py:171-184, `get_obj_hosts` 201-214, with the `get_users` / `get_hosts` they call. `depth` is what is left of Python's recursion limit (in nested calls). -/
def ngObj (base : Except Err Obj) (attrs : List Str) (fld : Netgroups.Field) : Nat → Link M S → Obj → Bool → Link M S × Except Err (List Str)
  | 0, l, _, _ => (l, .error .recursion)
  | depth + 1, l, ng, recursive =>
    match ngFields fld (AttrsDict.getAttr env.lower ng.attrs Netgroups.tripleAttr) with
    | .error e => (l, .error e)
    | .ok names =>
      if recursive && AttrsDict.has env.lower ng.attrs Netgroups.memberAttr then
        ngAll (fun l m =>
          match ngGet C view peer env typeOf base attrs l m with
          | (l', .error e) => (l', .error e)
          | (l', .ok n) => ngObj base attrs fld depth l' n true) l names (AttrsDict.getAttr env.lower ng.attrs Netgroups.memberAttr)
      else (l, .ok names)

/-- `get_users` netgroups.py:186-199, `get_hosts` 216-229 -/
def ngNames (base : Except Err Obj) (attrs : List Str) (fld : Netgroups.Field) (depth : Nat) (l : Link M S) (cn : Str) (recursive : Bool) : Link M S × Except Err (List Str) :=
  match ngGet C view peer env typeOf base attrs l cn with
  | (l', .error e) => (l', .error e)
  | (l', .ok n) => ngObj C view peer env typeOf base attrs fld depth l' n recursive

/-! ## The methods of an object (netgroups.py:298-399) -/

/-- `has_object_class` ldapobject.py:295-304, with the `refresh_missing` 327-341 of this one attribute. The value list has the type of `objectClass`. -/
def hasClass (strict : Bool) (l : Link M S) (o : Obj) (cls : Str) : Turn M S :=
  let t : Turn M S := if AttrsDict.has env.lower o.attrs (str "objectClass") then ⟨l, o, .ok .done⟩ else act C view peer env typeOf strict l o (.refresh [str "objectClass"])
  match t.result with
  | .error e => ⟨t.link, t.obj, .error e⟩
  | .ok _ =>
    match CIDict.getItem env.lower t.obj.attrs (str "objectClass") with
    | .error e => ⟨t.link, t.obj, .error e⟩
    | .ok vs => ⟨t.link, t.obj, (AttrValueList.contains typeOf (str "objectClass") vs (.text cls)).map .truth⟩

/-- `_require_netgroup` netgroups.py:299-305 -/
def ngRequire (strict : Bool) (l : Link M S) (o : Obj) : Turn M S :=
  let t := hasClass C view peer env typeOf strict l o (str "nisNetgroup")
  match t.result with
  | .ok (.truth false) => ⟨t.link, t.obj, .error .runtimeError⟩
  | r => ⟨t.link, t.obj, r⟩

/-- the call on the object, netgroups.py:339, 351, 363, 375, 387, 399 -/
def ngMethod (attrs : PDict Str (List Str)) : NgChange → Method
  | .add => .addAttrs (attrs.map (fun kv => (kv.1, kv.2.map .text)))
  | .replace => .replaceAttrs (attrs.map (fun kv => (kv.1, .list (kv.2.map .text))))
  | .delete => .deleteAttrs (attrs.map (fun kv => (kv.1, .list (kv.2.map .text))))

/-- `add_users` netgroups.py:329-339, `add_hosts` 341-351, `replace_users` 353-363, `replace_hosts` 365-375, `delete_users` 377-387, `delete_hosts` 389-399 of an object -/
def ngObjChange (how : NgChange) (fld : Netgroups.Field) (strict : Bool) (l : Link M S) (o : Obj) (members : Netgroups.Members) (domain : Option Str) : Turn M S :=
  let t := ngRequire C view peer env typeOf strict l o
  match t.result with
  | .error e => ⟨t.link, t.obj, .error e⟩
  | .ok _ =>
    match ngAttrs fld members domain with
    | .error e => ⟨t.link, t.obj, .error e⟩
    | .ok attrs => act C view peer env typeOf strict t.link t.obj (ngMethod attrs how)

/-- `get_users` netgroups.py:307-316, `get_hosts` 318-327 of an object: `get_obj_users(self, …)` is given the extension instead of the object, and that has no `get` (netgroups.py:428) -/
def ngObjNames (strict : Bool) (l : Link M S) (o : Obj) : Turn M S :=
  let t := ngRequire C view peer env typeOf strict l o
  match t.result with
  | .error e => ⟨t.link, t.obj, .error e⟩
  | .ok _ => ⟨t.link, t.obj, .error .attributeError⟩

end
end Api
end Laurelin
