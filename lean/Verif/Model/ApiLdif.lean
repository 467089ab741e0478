import Verif.Model.Ldif
import Verif.Model.ApiPatterns
/-!
# `process_ldif`, down to the octets (laurelin/ldap/base.py:1242-1477)

The text is read by `Model/Ldif.lean`; the call for each record is that of `Model/Api.lean`. Simplifications: those of these models; a DN, RDN or parent given in base64 that is not UTF-8 (then the call gets
`bytes`) ends it with an exception here; the keywords of `add` that are left when the controls are made (base.py:804, none unless the registries disagree) are refused as by the other methods.
-/
namespace Laurelin
namespace Api
open Codec Asn1 Rfc4511 OverWire
section
variable {V R M S : Type} (C : Net.Codec UInt8 M) (view : M → Val) (peer : Peer S) (env : Env V R) (embed : LVal → V)

/-- `self.default_criticality` (base.py:1335) and `controls.get_control(oid).keyword` (base.py:1338, controls.py:21-22) -/
def Env.ldif (env : Env V R) : Ldif.Env := ⟨env.conn.dfltCritical, fun oid => (env.conn.reg.byOid.get? oid).map (fun c => c.keyword)⟩

/-- a value as it came (base.py:1265-1271), as the encoder takes it -/
def valOf : LVal → AVal
  | .text s => .text s
  | .bin b => .raw b

/-- the value of a control keyword, marked or not (base.py:1325-1336); `embed`: Python values -/
def kwdOf : Ldif.Ctrl → Controls.Kwd V
  | ⟨v, none⟩ => .plain (embed v)
  | ⟨v, some true⟩ => .critical (embed v)
  | ⟨v, some false⟩ => .optional (embed v)

/-- `_process_ctrl_kwds(method, ctrl_kwds)` (base.py:360-363) for the control keywords of a record -/
def Env.withKwds (method : Str) (ctrls : PDict Str Ldif.Ctrl) : Env V R :=
  { env with ctrls := (Controls.processKwds env.conn.reg method (ctrls.map (fun kv => (kv.1, kwdOf embed kv.2))) env.conn.supportedCtrls env.conn.dfltCritical true).1 }

def textOf : LVal → Option Str
  | .text s => some s
  | .bin _ => none

/-- the method, the control keywords and the call: base.py:1379, 1382, 1431, 1472 -/
def callOf : Ldif.Op → Option (Str × PDict Str Ldif.Ctrl × Call V)
  | .add dn attrs ctrls => (textOf dn).map (fun dn => (str "add", ctrls, .add dn (attrs.map (fun kv => (kv.1, kv.2.map valOf)))))
  | .delete dn ctrls => (textOf dn).map (fun dn => (str "delete", ctrls, .delete dn))
  | .modify dn mods ctrls => (textOf dn).map (fun dn => (str "modify", ctrls, .modify dn (mods.map (fun md => ⟨md.op, md.attr, match md.vals with
      | .deleteAll => .deleteAll
      | .list l => .list (l.map valOf)⟩)) none))
  | .modDn dn rdn clean none ctrls => (textOf dn).bind (fun dn => (textOf rdn).map (fun rdn => (str "mod_dn", ctrls, .modDn dn rdn clean none)))
  | .modDn dn rdn clean (some p) ctrls => (textOf dn).bind (fun dn => (textOf rdn).bind (fun rdn => (textOf p).map (fun p => (str "mod_dn", ctrls, .modDn dn rdn clean (some p)))))

/-- the call of one record -/
def execLdif (l : Link M S) (op : Ldif.Op) : Link M S × Except Err (Ret R) :=
  match callOf op with
  | none => (l, .error .typeError)
  | some (method, ctrls, c) => call C view peer (env.withKwds embed method ctrls) l c

/-- base.py:1242-1477 `process_ldif`: the connection afterwards, and the list of what the calls returned or the exception -/
def processLdif (l : Link M S) (text : Str) : Link M S × Except Err (List (Ret R)) :=
  let r := Ldif.processLdif env.ldif (execLdif C view peer env embed) l text
  (r.1.2, r.2)

end
end Api
end Laurelin
