import Verif.Model.ApiObject
import Verif.Model.DescAttrs
/-!
# Structured descriptions, down to the octets (laurelin/extensions/descattrs.py)

What the extension keeps and how it changes is that of `Model/DescAttrs.lean`; the calls on the object are those of `Model/ApiObject.lean`. There is one extension object per `LDAPObject`: it is made when the
property is first used, and kept (extensible/base.py:131-151, 193-212), so that everything after `descOpen` uses the same `Desc`.
-/
namespace Laurelin
namespace Api
open Codec Asn1 Rfc4511 OverWire DescAttrs

/-- the values as text; `'=' in desc` raises `TypeError` for octets (descattrs.py:61) -/
def descTexts : List AVal → Except Err (List Str)
  | [] => .ok []
  | .raw _ :: _ => .error .typeError
  | .text t :: vs =>
    match descTexts vs with
    | .error e => .error e
    | .ok ts => .ok (t :: ts)

/-- the connection, the object and the extension after a call, and how it ended -/
structure DescTurn (M S : Type) where
  link : Link M S
  obj : Obj
  desc : Desc
  result : Except Err Unit

section
variable {V R M S : Type} (C : Net.Codec UInt8 M) (view : M → Val) (peer : Peer S) (env : Env V R) (typeOf : TypeOf AVal)

/-- `__init__` descattrs.py:54-66, with the `refresh_missing` of ldapobject.py:327-341 for this one attribute -/
def descOpen (strict : Bool) (l : Link M S) (o : Obj) : Link M S × Obj × Except Err Desc :=
  let t : Turn M S := if AttrsDict.has env.lower o.attrs descAttr then ⟨l, o, .ok .done⟩ else act C view peer env typeOf strict l o (.refresh [descAttr])
  match t.result with
  | .error e => (t.link, t.obj, .error e)
  | .ok _ =>
    match descTexts (AttrsDict.getAttr env.lower t.obj.attrs descAttr) with
    | .error e => (t.link, t.obj, .error e)
    | .ok ds => (t.link, t.obj, .ok (readDesc env.lower ds))

/-- `_modify_desc_attrs` descattrs.py:78-93: `add` 95-102, `replace` 104-111, `delete` 113-120. The extension's own dictionary is changed before the request is sent. -/
def descChange (order : List Str → List Str) (strict : Bool) (l : Link M S) (o : Obj) (st : Desc) (op : DOp) : DescTurn M S :=
  match o.dn with
  | none => ⟨l, o, st, .error .runtimeError⟩
  | some _ =>
    let st' : Desc := { st with dict := apply env.lower st.dict op }
    let t := act C view peer env typeOf strict l o (.replaceAttrs [(descAttr, .list ((render order st').map .text))])
    ⟨t.link, t.obj, st', t.result.map (fun _ => ())⟩

end

/-- one change after the other, each with the connection's settings of the moment -/
def descRun {V R M S : Type} (C : Net.Codec UInt8 M) (view : M → Val) (peer : Peer S) (typeOf : TypeOf AVal) (order : List Str → List Str) : Link M S → Obj → Desc → List (Env V R × Bool × DOp) →
    Link M S × Obj × Desc
  | l, o, st, [] => (l, o, st)
  | l, o, st, (env, strict, op) :: rest =>
    let t := descChange C view peer env typeOf order strict l o st op
    descRun C view peer typeOf order t.link t.obj t.desc rest

end Api
end Laurelin
