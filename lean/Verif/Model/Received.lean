import Verif.Model.Rfc4511
import Verif.Model.Net
import Verif.Model.Search
/-!
# Reading decoded messages (laurelin/ldap/net.py, protoutils.py, base.py, controls.py)

`none` where the code would raise because a text is not UTF-8 (or an OID not ASCII) or the value is not of the shape its type says; the second does not happen for decoded values.
pyasn1 is assumed to raise `UnicodeDecodeError` for text that is not UTF-8, as `seq_to_list` expects.
-/
namespace Laurelin
namespace Received
open Codec Asn1 Rfc4511

/-- the component at the position of a name -/
def Items.at : Comps → Str → Items → Option (Option Val)
  | .cons n _ _ cs, name, .absent r => if n = name then some none else Items.at cs name r
  | .cons n _ _ cs, name, .cons v r => if n = name then some (some v) else Items.at cs name r
  | _, _, _ => none

/-- `getComponentByName` of a component that is set -/
def field (comps : Comps) (name : Str) : Val → Option Val
  | .seq fs => (Items.at comps name fs).join
  | _ => none

/-- `int(...)` of an INTEGER or ENUMERATED -/
def intField (comps : Comps) (name : Str) (v : Val) : Option Int :=
  match field comps name v with
  | some (.int z) => some z
  | _ => none

def octetsOf : Val → Option Bytes
  | .octets b => some b
  | _ => none

/-- `six.text_type(...)` -/
def textOf (v : Val) : Option Str := (octetsOf v).bind utf8Dec

/-- `response.getComponentByName('messageID')`, net.py:342 -/
def messageId (v : Val) : Option Int := intField messageComps (str "messageID") v

/-- `unpack`, protoutils.py:34-44; `none`: `UnexpectedResponseType` -/
def unpack (op : Str) (v : Val) : Option (Val × Option Val) :=
  match field messageComps (str "protocolOp") v with
  | some (.choice got obj) => if got = op then some (obj, field messageComps (str "controls") v) else none
  | _ => none

def Items.vals : Items → List Val
  | .nil => []
  | .absent r => Items.vals r
  | .cons v r => v :: Items.vals r

def elems : Val → List Val
  | .list vs => Items.vals vs
  | _ => []

/-- one value as `seq_to_list` gives it: text, or the octets if they are not UTF-8 -/
def readVal (v : Val) : AVal :=
  match octetsOf v with
  | none => .raw []
  | some b =>
    match utf8Dec b with
    | some s => .text s
    | none => .raw b

/-- `seq_to_list`, protoutils.py:47-55 -/
def seqToList (v : Val) : List AVal := (elems v).map readVal

/-- the same where text is needed -/
def texts : List Val → Option (List Str)
  | [] => some []
  | v :: l =>
    match textOf v, texts l with
    | some s, some r => some (s :: r)
    | _, _ => none

/-- what `handle_response` looks at in each control, controls.py:69-75 -/
def readControl (v : Val) : Option Controls.Wire :=
  match field controlComps (str "controlType") v, field controlComps (str "criticality") v with
  | some (.octets o), some (.bool c) =>
    match Paged.decByte 128 o with
    | none => none
    | some oid => some ⟨oid, c, ((field controlComps (str "controlValue") v).bind octetsOf).map (fun b => b.map (·.toNat))⟩
  | _, _ => none

def readControls : List Val → Option (List Controls.Wire)
  | [] => some []
  | v :: l =>
    match readControl v, readControls l with
    | some w, some r => some (w :: r)
    | _, _ => none

/-- `res_ctrls`: nothing if there is no `controls` component -/
def responseControls : Option Val → Option (List Controls.Wire)
  | none => some []
  | some v => readControls (elems v)

/-- DN and attributes of an entry -/
abbrev Entry := Str × PDict Str (List AVal)

/-- base.py:1575-1581: `attrs[attr_type] = seq_to_list(vals)` -/
def readAttrs : PDict Str (List AVal) → List Val → Option (PDict Str (List AVal))
  | d, [] => some d
  | d, v :: l =>
    match (field attributeComps (str "type") v).bind textOf, field attributeComps (str "vals") v with
    | some n, some vs => readAttrs (d.set n (seqToList vs)) l
    | _, _ => none

/-- base.py:1574-1581 -/
def readEntry (v : Val) : Option Entry :=
  match (field entryComps (str "objectName") v).bind textOf, field entryComps (str "attributes") v with
  | some dn, some as => (readAttrs [] (elems as)).map (fun d => (dn, d))
  | _, _ => none

/-- the result code; a negative one is an error like any other (1: operationsError) -/
def codeOf (z : Int) : Nat := if z < 0 then 1 else z.toNat

/-- `res.getComponentByName('resultCode')` of any response, e.g. base.py:374, 766, 830 -/
def resultCode (comps : Comps) (v : Val) : Option Nat := (intField comps (str "resultCode") v).map codeOf

/-- a message as `SearchResultHandle.__iter__` sees it, base.py:1571-1610 -/
def searchMsg (v : Val) : Option (Search.Msg Entry) :=
  match unpack (str "searchResEntry") v with
  | some (e, cs) =>
    match readEntry e, responseControls cs with
    | some e, some ws => some (.entry e ws)
    | _, _ => none
  | none =>
    match unpack (str "searchResDone") v with
    | some (r, cs) =>
      match resultCode (resultComps .nil) r, responseControls cs, texts (((field (resultComps .nil) (str "referral") r).map elems).getD []) with
      | some c, some ws, some refs => some (.done c ws refs)
      | _, _, _ => none
    | none =>
      match unpack (str "searchResRef") v with
      | some (r, cs) =>
        match texts (elems r), responseControls cs with
        | some us, some ws => some (.ref us ws)
        | _, _ => none
      | none => some .other

/-- `_success_result` and the other methods that read one response: result code and response controls, or `UnexpectedResponseType` (`some none`). base.py:371-383, 764-778, 828-837 -/
def readResult (op : Str) (v : Val) : Option (Option (Nat × List Controls.Wire)) :=
  match unpack op v with
  | none => some none
  | some (r, cs) =>
    match resultCode (resultComps .nil) r, responseControls cs with
    | some c, some ws => some (some (c, ws))
    | _, _ => none

/-! ## The decoder as the codec of `Model/Net.lean` -/

/-- a decoded message with the octets it was decoded from -/
abbrev Decoded := { x : Val × Bytes // ∃ r, recv (x.2 ++ r) = .ok (x.1, r) }

def mid (m : Decoded) : Nat := ((messageId m.1.1).getD 0).toNat

end Received
end Laurelin
