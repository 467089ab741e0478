import Verif.Model.Asn1
import Verif.Model.SearchRequest
import Verif.Model.LdapModify
import Verif.Model.Dn
import Verif.Model.PagedResults
/-!
# The protocol declarations (laurelin/ldap/rfc4511.py), and the messages that `LDAP` methods send (laurelin/ldap/base.py, protoutils.py, filter.py, controls.py)

Identifier octets: context-specific primitive `0x80 + n`, context-specific constructed `0xA0 + n`, application primitive `0x40 + n`, application constructed `0x60 + n`.
pyasn1's `tagImplicitly` keeps the format (primitive or constructed) of the type that is tagged: so `Present`, declared with `tagFormatConstructed` (rfc4511.py:622),
is the primitive `0x87`.
-/
namespace Laurelin
namespace Rfc4511
open Codec Asn1

/-- `OctetString` and the string types that keep its tag, rfc4511.py:81-131, 141-143, 185-187, 363-368, 447-449, 493-498 -/
abbrev string : Ty := .octets 0x04
/-- `Integer0ToMax`, `MessageID`, rfc4511.py:57-62, 77-88 -/
abbrev maxInt : Int := 2147483647
abbrev int0Max : Ty := .int 0x02 (some (0, maxInt))
/-- `Enumerated` types: 245-360, 468-485, 672-678. The constraint of `ResultCode` is assigned to `subTypeSpec` (360), which pyasn1 does not look at. -/
abbrev enumerated : Ty := .int 0x0A none

/-- `AttributeValueAssertion`, rfc4511.py:133-138 -/
abbrev avaComps : Comps := .cons (str "attributeDesc") .required string (.cons (str "assertionValue") .required string .nil)
/-- `Vals`, rfc4511.py:146-148 -/
abbrev vals : Ty := .list 0x31 string
/-- `PartialAttribute` and `Attribute`, rfc4511.py:157-171 -/
abbrev attributeComps : Comps := .cons (str "type") .required string (.cons (str "vals") .required vals .nil)
abbrev attribute_ : Ty := .seq 0x30 attributeComps
/-- `AttributeList`, `PartialAttributeList`, rfc4511.py:174-176, 666-669 -/
abbrev attributeList : Ty := .list 0x30 attribute_

/-- `SaslCredentials`, rfc4511.py:190-196 -/
abbrev saslComps : Comps := .cons (str "mechanism") .required string (.cons (str "credentials") .optional string .nil)
/-- `AuthenticationChoice`, rfc4511.py:179-182, 199-237 -/
abbrev authentication : Ty := .choice (.cons (str "simple") (.octets 0x80) (.cons (str "sasl") (.seq 0xA3 saslComps)
  (.cons (str "sicilyPackageDiscovery") (.octets 0x89) (.cons (str "sicilyNegotiate") (.octets 0x8A) (.cons (str "sicilyResponse") (.octets 0x8B) .nil)))))

/-- `LDAPResult`, rfc4511.py:371-374, 383-439, before further components -/
abbrev resultComps (more : Comps) : Comps :=
  .cons (str "resultCode") .required enumerated (.cons (str "matchedDN") .required string (.cons (str "diagnosticMessage") .required string
    (.cons (str "referral") .optional (.list 0xA3 string) more)))

/-- `Control`, rfc4511.py:442-459 -/
abbrev controlComps : Comps :=
  .cons (str "controlType") .required string (.cons (str "criticality") .defaultFalse (.bool 0x01) (.cons (str "controlValue") .optional string .nil))
/-- `Controls`, rfc4511.py:462-465 -/
abbrev controls : Ty := .list 0xA0 (.seq 0x30 controlComps)

/-- `MatchingRuleAssertion`, rfc4511.py:508-538 -/
abbrev ruleComps : Comps :=
  .cons (str "matchingRule") .optional (.octets 0x81) (.cons (str "type") .optional (.octets 0x82) (.cons (str "matchValue") .required (.octets 0x83)
    (.cons (str "dnAttributes") .defaultFalse (.bool 0x84) .nil)))
/-- `Substring`, rfc4511.py:541-564 -/
abbrev substring : Ty := .choice (.cons (str "initial") (.octets 0x80) (.cons (str "any") (.octets 0x81) (.cons (str "final") (.octets 0x82) .nil)))
/-- `SubstringFilter`, rfc4511.py:567-585 -/
abbrev substringComps : Comps := .cons (str "type") .required string (.cons (str "substrings") .required (.list 0x30 substring) .nil)
/-- `Filter`, rfc4511.py:588-663. The size constraints of `And`, `Or`, `Substrings` are not modelled: the parsers never build an empty one. -/
abbrev filterAlts : Alts :=
  .cons (str "and") (.list 0xA0 .self) (.cons (str "or") (.list 0xA1 .self) (.cons (str "not") (.wrapped 0xA2 (str "innerNotFilter") .self)
  (.cons (str "equalityMatch") (.seq 0xA3 avaComps) (.cons (str "substrings") (.seq 0xA4 substringComps) (.cons (str "greaterOrEqual") (.seq 0xA5 avaComps)
  (.cons (str "lessOrEqual") (.seq 0xA6 avaComps) (.cons (str "present") (.octets 0x87) (.cons (str "approxMatch") (.seq 0xA8 avaComps)
  (.cons (str "extensibleMatch") (.seq 0xA9 ruleComps) .nil)))))))))

/-- `BindRequest`, rfc4511.py:240-242, 742-750 -/
abbrev bindComps : Comps := .cons (str "version") .required (.int 0x02 (some (1, 127))) (.cons (str "name") .required string (.cons (str "authentication") .required authentication .nil))
/-- `SearchRequest`, rfc4511.py:501-505, 770-796 -/
abbrev searchComps : Comps :=
  .cons (str "baseObject") .required string (.cons (str "scope") .required enumerated (.cons (str "derefAliases") .required enumerated
  (.cons (str "sizeLimit") .required int0Max (.cons (str "timeLimit") .required int0Max (.cons (str "typesOnly") .required (.bool 0x01)
  (.cons (str "filter") .required .self (.cons (str "attributes") .required (.list 0x30 string) .nil)))))))
/-- `SearchResultEntry`, rfc4511.py:807-813 -/
abbrev entryComps : Comps := .cons (str "objectName") .required string (.cons (str "attributes") .required attributeList .nil)
/-- `Change`, rfc4511.py:681-690 -/
abbrev changeComps : Comps := .cons (str "operation") .required enumerated (.cons (str "modification") .required attribute_ .nil)
/-- `ModifyRequest`, rfc4511.py:693-695, 821-833 -/
abbrev modifyComps : Comps := .cons (str "object") .required string (.cons (str "changes") .required (.list 0x30 (.seq 0x30 changeComps)) .nil)
/-- `AddRequest`, rfc4511.py:841-847 -/
abbrev addComps : Comps := .cons (str "entry") .required string (.cons (str "attributes") .required attributeList .nil)
/-- `ModifyDNRequest`, rfc4511.py:698-705, 865-875 -/
abbrev modDnComps : Comps :=
  .cons (str "entry") .required string (.cons (str "newrdn") .required string (.cons (str "deleteoldrdn") .required (.bool 0x01) (.cons (str "newSuperior") .optional (.octets 0x80) .nil)))
/-- `CompareRequest`, rfc4511.py:883-889 -/
abbrev compareComps : Comps := .cons (str "entry") .required string (.cons (str "ava") .required (.seq 0x30 avaComps) .nil)
/-- `ExtendedRequest`, rfc4511.py:708-716, 902-908 -/
abbrev extendedComps : Comps := .cons (str "requestName") .required (.octets 0x80) (.cons (str "requestValue") .optional (.octets 0x81) .nil)
/-- `ExtendedResponse`, rfc4511.py:719-727, 911-922 -/
abbrev extendedRespComps : Comps := resultComps (.cons (str "responseName") .optional (.octets 0x8A) (.cons (str "responseValue") .optional (.octets 0x8B) .nil))
/-- `IntermediateResponse`, rfc4511.py:730-738, 925-931 -/
abbrev intermediateComps : Comps := .cons (str "responseName") .optional (.octets 0x80) (.cons (str "responseValue") .optional (.octets 0x81) .nil)
/-- `BindResponse`, rfc4511.py:377-379, 753-762 -/
abbrev bindRespComps : Comps := resultComps (.cons (str "serverSaslCreds") .optional (.octets 0x87) .nil)

/-- `ProtocolOp`, rfc4511.py:934-978; `UnbindRequest` 765-767, `SearchResultReference` 799-804, results 816-818, 836-838, 850-852, 860-862, 878-880, 892-894, `DelRequest` 855-857,
`AbandonRequest` 897-899 -/
abbrev protocolOps : Alts :=
  .cons (str "bindRequest") (.seq 0x60 bindComps) (.cons (str "bindResponse") (.seq 0x61 bindRespComps) (.cons (str "unbindRequest") (.null 0x42)
  (.cons (str "searchRequest") (.seq 0x63 searchComps) (.cons (str "searchResEntry") (.seq 0x64 entryComps) (.cons (str "searchResDone") (.seq 0x65 (resultComps .nil))
  (.cons (str "searchResRef") (.list 0x73 string) (.cons (str "modifyRequest") (.seq 0x66 modifyComps) (.cons (str "modifyResponse") (.seq 0x67 (resultComps .nil))
  (.cons (str "addRequest") (.seq 0x68 addComps) (.cons (str "addResponse") (.seq 0x69 (resultComps .nil)) (.cons (str "delRequest") (.octets 0x4A)
  (.cons (str "delResponse") (.seq 0x6B (resultComps .nil)) (.cons (str "modDNRequest") (.seq 0x6C modDnComps) (.cons (str "modDNResponse") (.seq 0x6D (resultComps .nil))
  (.cons (str "compareRequest") (.seq 0x6E compareComps) (.cons (str "compareResponse") (.seq 0x6F (resultComps .nil)) (.cons (str "abandonRequest") (.int 0x50 (some (0, maxInt)))
  (.cons (str "extendedReq") (.seq 0x77 extendedComps) (.cons (str "extendedResp") (.seq 0x78 extendedRespComps)
  (.cons (str "intermediateResponse") (.seq 0x79 intermediateComps) .nil))))))))))))))))))))

/-- `LDAPMessage`, rfc4511.py:981-1010 -/
abbrev messageComps : Comps := .cons (str "messageID") .required int0Max (.cons (str "protocolOp") .required (.choice protocolOps) (.cons (str "controls") .optional controls .nil))
abbrev ldapMessage : Ty := .seq 0x30 messageComps

/-! ## Named values -/

/-- `Scope.namedValues`, rfc4511.py:473 -/
def scopes : List (Str × Int) := [(str "baseObject", 0), (str "singleLevel", 1), (str "wholeSubtree", 2)]
/-- `DerefAliases.namedValues`, rfc4511.py:482-485 -/
def derefs : List (Str × Int) := [(str "neverDerefAliases", 0), (str "derefInSearching", 1), (str "derefFindingBaseObj", 2), (str "derefAlways", 3)]
/-- `Operation.namedValues`, rfc4511.py:678 -/
def operations : List (Str × Int) := [(str "add", 0), (str "delete", 1), (str "replace", 2), (str "increment", 3)]

/-- an `Enumerated` made from a name -/
def named (tbl : List (Str × Int)) (name : Str) : Option Val := (tbl.find? (fun p => p.1 = name)).map (fun p => .int p.2)

/-- constants.py:60-70 -/
def scopeVal : Scope → Option Val
  | .base => named scopes (str "baseObject")
  | .one => named scopes (str "singleLevel")
  | .sub => named scopes (str "wholeSubtree")
  | .other => none

/-- modify.py:12-14 -/
def opVal : ModOp → Option Val
  | .add => named operations (str "add")
  | .replace => named operations (str "replace")
  | .delete => named operations (str "delete")

/-! ## Building values -/

/-- an attribute value, password, credentials ...: `str` (encoded as UTF-8) or `bytes` -/
inductive AVal where
  | text (s : Str)
  | raw (b : Bytes)
  deriving DecidableEq, Repr

def AVal.bytes : AVal → Bytes
  | .text s => utf8Enc s
  | .raw b => b

/-- a string type with `encoding = 'utf-8'` -/
def utf8 (s : Str) : Val := .octets (utf8Enc s)
def aval (v : AVal) : Val := .octets v.bytes

/-- `LDAPOID` and its tagged forms have no `encoding` (rfc4511.py:91-96): only ASCII text is modelled -/
def oidVal (s : Str) : Option Val := (Paged.encByte 128 s).map .octets

/-- `setComponentByPosition` in a loop -/
def listVal (l : List Val) : Val := .list (Items.ofList l)

/-- filter.py:172-181 -/
def avaVal (attr value : Str) : Option Val := mkSeq avaComps [(str "attributeDesc", utf8 attr), (str "assertionValue", utf8 value)]

/-- filter.py:195-210 -/
def subVal : Sub → Val
  | .initial s => .choice (str "initial") (utf8 s)
  | .any s => .choice (str "any") (utf8 s)
  | .final s => .choice (str "final") (utf8 s)

mutual
/-- What the filter parsers build for each filter, filter.py:124-152, 172-237, 276-345 -/
def filterVal : Filter → Option Val
  | .and l => (filterVals l).map (fun vs => .choice (str "and") (.list vs))
  | .or l => (filterVals l).map (fun vs => .choice (str "or") (.list vs))
  | .not f => (filterVal f).map (fun v => .choice (str "not") (.choice (str "innerNotFilter") v))
  | .equality a v => (avaVal a v).map (.choice (str "equalityMatch"))
  | .approx a v => (avaVal a v).map (.choice (str "approxMatch"))
  | .greaterOrEqual a v => (avaVal a v).map (.choice (str "greaterOrEqual"))
  | .lessOrEqual a v => (avaVal a v).map (.choice (str "lessOrEqual"))
  | .present a => some (.choice (str "present") (utf8 a))
  | .substrings a subs => (mkSeq substringComps [(str "type", utf8 a), (str "substrings", listVal (subs.map subVal))]).map (.choice (str "substrings"))
  | .extensible rule attr value dn =>
    (mkSeq ruleComps ([(str "matchValue", utf8 value), (str "dnAttributes", .bool dn)] ++ (attr.map (fun a => (str "type", utf8 a))).toList ++
      (rule.map (fun r => (str "matchingRule", utf8 r))).toList)).map (.choice (str "extensibleMatch"))
def filterVals : List Filter → Option Items
  | [] => some .nil
  | f :: l => match filterVal f, filterVals l with
    | some v, some vs => some (.cons v vs)
    | _, _ => none
end

/-- `Control.prepare`, controls.py:129-134 -/
def controlVal (w : Controls.Wire) : Option Val :=
  match oidVal w.oid with
  | none => none
  | some o => mkSeq controlComps ([(str "controlType", o), (str "criticality", .bool w.critical)] ++
      (w.value.map (fun b => (str "controlValue", Val.octets (b.map byte)))).toList)

/-- the list of `process_kwds`, controls.py:33-55: `None` when there are no controls -/
def controlVals : List Controls.Wire → Option Items
  | [] => some .nil
  | w :: l => match controlVal w, controlVals l with
    | some v, some vs => some (.cons v vs)
    | _, _ => none

def attrVals (l : List AVal) : Val := listVal (l.map aval)

/-- base.py:813-822, 1027-1035 -/
def attributeVal (name : Str) (l : List AVal) : Option Val := mkSeq attributeComps [(str "type", utf8 name), (str "vals", attrVals l)]

def attributeVals : List (Str × List AVal) → Option Items
  | [] => some .nil
  | (n, l) :: r => match attributeVal n l, attributeVals r with
    | some v, some vs => some (.cons v vs)
    | _, _ => none

/-- base.py:1025-1038 -/
def changeVal (c : Change AVal) : Option Val :=
  match opVal c.op, attributeVal c.attr c.vals with
  | some o, some a => mkSeq changeComps [(str "operation", o), (str "modification", a)]
  | _, _ => none

def changeVals : List (Change AVal) → Option Items
  | [] => some .nil
  | c :: r => match changeVal c, changeVals r with
    | some v, some vs => some (.cons v vs)
    | _, _ => none

/-! ## Requests: the operation name and the object that each method passes to `send_message` -/

/-- `simple_bind`, base.py:404-413 -/
def simpleBindOp (username password : Str) : Option (Str × Val) :=
  (mkSeq bindComps [(str "version", .int 3), (str "name", utf8 username), (str "authentication", .choice (str "simple") (utf8 password))]).map (fun v => (str "bindRequest", v))

/-- `sasl_bind`, base.py:489-501: one round; `response` is what the mechanism answered to the last challenge -/
def saslBindOp (mech : Str) (response : Option AVal) : Option (Str × Val) :=
  match mkSeq saslComps ([(str "mechanism", utf8 mech)] ++ (response.map (fun r => (str "credentials", aval r))).toList) with
  | none => none
  | some s => (mkSeq bindComps [(str "version", .int 3), (str "name", utf8 []), (str "authentication", .choice (str "sasl") s)]).map (fun v => (str "bindRequest", v))

/-- `unbind`, base.py:534 -/
def unbindOp : Option (Str × Val) := some (str "unbindRequest", .null)

/-- `search`, base.py:692-733; `deref` is the number of the alias handling value -/
def searchOp (q : SearchReq) : Option (Str × Val) :=
  match scopeVal q.scope, filterVal q.filter with
  | some scope, some filter =>
    (mkSeq searchComps [(str "baseObject", utf8 q.base), (str "scope", scope), (str "derefAliases", .int q.deref), (str "sizeLimit", .int q.limit),
      (str "timeLimit", .int q.timeout), (str "typesOnly", .bool q.typesOnly), (str "filter", filter),
      (str "attributes", listVal (q.attrs.map utf8))]).map (fun v => (str "searchRequest", v))
  | _, _ => none

/-- `compare`, base.py:755-764 -/
def compareOp (dn attr value : Str) : Option (Str × Val) :=
  match avaVal attr value with
  | none => none
  | some a => (mkSeq compareComps [(str "entry", utf8 dn), (str "ava", a)]).map (fun v => (str "compareRequest", v))

/-- `add`, base.py:809-826: attributes in the order of the dict -/
def addOp (dn : Str) (attrs : List (Str × List AVal)) : Option (Str × Val) :=
  match attributeVals attrs with
  | none => none
  | some l => (mkSeq addComps [(str "entry", utf8 dn), (str "attributes", .list l)]).map (fun v => (str "addRequest", v))

/-- `delete`, base.py:920 -/
def deleteOp (dn : Str) : Option (Str × Val) := some (str "delRequest", utf8 dn)

/-- `mod_dn`, base.py:943-950 -/
def modDnOp (q : ModDnReq) : Option (Str × Val) :=
  (mkSeq modDnComps ([(str "entry", utf8 q.dn), (str "newrdn", utf8 q.newRdn), (str "deleteoldrdn", .bool q.deleteOld)] ++
    (q.newSuperior.map (fun p => (str "newSuperior", utf8 p))).toList)).map (fun v => (str "modDNRequest", v))

/-- `modify`, base.py:1005-1042 -/
def modifyOp (q : ModRequest AVal) : Option (Str × Val) :=
  match changeVals q.changes with
  | none => none
  | some l => (mkSeq modifyComps [(str "object", utf8 q.dn), (str "changes", .list l)]).map (fun v => (str "modifyRequest", v))

/-- `send_extended_request`, base.py:1148-1155 -/
def extendedOp (oid : Str) (value : Option AVal) : Option (Str × Val) :=
  match oidVal oid with
  | none => none
  | some o => (mkSeq extendedComps ([(str "requestName", o)] ++ (value.map (fun v => (str "requestValue", aval v))).toList)).map (fun v => (str "extendedReq", v))

/-- `abandon`, base.py:1553 -/
def abandonOp (mid : Int) : Option (Str × Val) := some (str "abandonRequest", .int mid)

/-- What a method of `LDAP` asks the server, after it has processed its arguments (`SearchReq`, `ModDnReq`, `ModRequest` are the requests of the other models) -/
inductive Call where
  | simpleBind (username password : Str)
  | saslBind (mech : Str) (response : Option AVal)
  | unbind
  | search (q : SearchReq)
  | compare (dn attr value : Str)
  | add (dn : Str) (attrs : List (Str × List AVal))
  | delete (dn : Str)
  | modDn (q : ModDnReq)
  | modify (q : ModRequest AVal)
  | extended (oid : Str) (value : Option AVal)
  | abandon (mid : Int)

def Call.op : Call → Option (Str × Val)
  | .simpleBind u p => simpleBindOp u p
  | .saslBind m r => saslBindOp m r
  | .unbind => unbindOp
  | .search q => searchOp q
  | .compare d a v => compareOp d a v
  | .add d l => addOp d l
  | .delete d => deleteOp d
  | .modDn q => modDnOp q
  | .modify q => modifyOp q
  | .extended o v => extendedOp o v
  | .abandon i => abandonOp i

/-- `pack`, protoutils.py:22-31; `controls` is `None` or a list that is not empty (controls.py:52-55) -/
def pack (mid : Int) (op : Str) (obj : Val) (controls : Option Val) : Option Val :=
  mkSeq messageComps ([(str "messageID", .int mid), (str "protocolOp", .choice op obj)] ++ (controls.map (fun c => (str "controls", c))).toList)

/-- `send_message`, net.py:276-301, without SASL wrapping: the octets written to the socket; `none`: pyasn1 raises and nothing is sent -/
def send (mid : Int) (op : Option (Str × Val)) (ctrls : Option (List Controls.Wire)) : Option Bytes :=
  match op with
  | none => none
  | some (name, obj) =>
    match ctrls with
    | none => (pack mid name obj none).bind (encode filterAlts ldapMessage)
    | some ws =>
      match controlVals ws with
      | none => none
      | some vs => (pack mid name obj (some (.list vs))).bind (encode filterAlts ldapMessage)

/-- `ber_decode(raw, asn1Spec=LDAPMessage())`, net.py:341 -/
def recv (raw : Bytes) : Res (Val × Bytes) := berDecode filterAlts ldapMessage raw

end Rfc4511
end Laurelin
