import Verif.Model.Api
import Verif.Model.ObjectSchema
/-!
A connection that has `SchemaValidator` among its validators: `add` and `modify` run it on what they are given, and it remembers what it has read of the object classes (objectclass.py:123-151).
Simplifications: it is the first of the validators; values that are not text are judged by a parameter; registering further schema elements in between is not modelled.
-/
namespace Laurelin
namespace Api
open Laurelin Codec Rfc4511 OverWire ObjectSchema

/-- values that are all text -/
def asTexts : List AVal → Option (List Str)
  | [] => some []
  | .text s :: l => (asTexts l).map (s :: ·)
  | .raw _ :: _ => none

def asTextData : List (Str × List AVal) → Option (List (Str × List Str))
  | [] => some []
  | kv :: l =>
    match asTexts kv.2, asTextData l with
    | some vs, some d => some ((kv.1, vs) :: d)
    | _, _ => none

/-- `if mod.vals:` validation.py:40 takes `DELETE_ALL` for no values (constants.py:42-53). -/
def modTexts : List (Mod AVal) → Option (List (Str × List Str))
  | [] => some []
  | md :: l =>
    match (match md.vals with | .deleteAll => some [] | .list vs => asTexts vs), modTexts l with
    | some vs, some d => some ((md.attr, vs) :: d)
    | _, _ => none

/-- the loaded schema, and what becomes of values that are not text -/
structure Guard where
  env : AttrSchema.Env
  classes : Classes
  rawObject : (Str × AttrsDict AVal) → Except Err Unit
  rawModify : (Str × List (Mod AVal) × Option (AttrsDict AVal)) → Except Err Unit

/-- `SchemaValidator.validate_object(obj, write)`, schema.py:20-56, as `LDAP.validate_object` (base.py:1219-1227) calls it: what it remembers, and its verdict -/
def Guard.look (g : Guard) (m : Memo) (p : Str × AttrsDict AVal) (write : Bool := true) : Memo × Except Err Unit :=
  match asTextData p.2.data with
  | some d => validateObject g.env g.classes m ⟨p.2.keys, d⟩ write
  | none => (m, g.rawObject p)

/-- `validate_modify`, validation.py:24-41, as `LDAP.validate_modify` (base.py:1229-1238) calls it -/
def Guard.lookModify (g : Guard) (p : Str × List (Mod AVal) × Option (AttrsDict AVal)) : Except Err Unit :=
  match modTexts p.2.1 with
  | some l => Schema.validateModify (attrEnv g.env) l
  | none => g.rawModify p

/-- `LDAPObject.validate()`, ldapobject.py:502-504, with `validate_object(obj, write=False)`, base.py:1219-1227; `others`: the further validators -/
def objValidate (g : Guard) (m : Memo) (others : List ((Str × AttrsDict AVal) → Except Err Unit)) (o : Str × AttrsDict AVal) : Memo × Except Err Unit :=
  let x := g.look m o false
  (x.1, runValidation ((fun _ => x.2) :: others) o)

/-- `LDAPObject.validate_modify(modlist)`, ldapobject.py:506-511, with `validate_modify(dn, modlist, current)`, base.py:1229-1238 -/
def objValidateModify (g : Guard) (others : List ((Str × List (Mod AVal) × Option (AttrsDict AVal)) → Except Err Unit)) (o : Str × AttrsDict AVal) (mods : List (Mod AVal)) : Except Err Unit :=
  runValidation (g.lookModify :: others) (o.1, mods, some o.2)

variable {V R M S : Type}

/-- the connection with the validator -/
def guarded (g : Guard) (m : Memo) (env : Env V R) : Env V R :=
  { env with addValidators := (fun p => (g.look m p).2) :: env.addValidators, modValidators := g.lookModify :: env.modValidators }

/-- one call on it: `add`, base.py:794-807, remembers if it gets as far as the validation -/
def guardedCall (C : Net.Codec UInt8 M) (view : M → Asn1.Val) (peer : Peer S) (g : Guard) (env : Env V R) (m : Memo) (l : Link M S) (c : Call V) : (Memo × Link M S) × Except Err (Ret R) :=
  let x := call C view peer (guarded g m env) l c
  (((match c with
    | .add dn attrs =>
      if env.conn.unbound then m
      else match env.ctrlsOk with
        | .error _ => m
        | .ok _ => (g.look m (dn, CIDict.update env.lower CIDict.empty attrs)).1
    | _ => m), x.1), x.2)

/-- calls one after the other, whatever each returns or raises -/
def guardedRun (C : Net.Codec UInt8 M) (view : M → Asn1.Val) (peer : Peer S) (g : Guard) (env : Env V R) : Memo → Link M S → List (Call V) → Memo × Link M S
  | m, l, [] => (m, l)
  | m, l, c :: cs =>
    let x := guardedCall C view peer g env m l c
    guardedRun C view peer g env x.1.1 x.1.2 cs

end Api
end Laurelin
