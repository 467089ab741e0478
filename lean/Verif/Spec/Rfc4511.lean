import Verif.Spec.PagedResults
/-!
Specification: LDAP messages and their BER encodings, from RFC 4511 (section 4, appendix B, and 5.1 for the restrictions on BER) and X.690. Independent of the model: the
messages are plain data over octet strings, the encoding is a relation between a message and octets (lengths may be written in several ways).

Identifier octets: universal BOOLEAN 01, INTEGER 02, OCTET STRING 04, NULL 05, ENUMERATED 0A, SEQUENCE 30, SET 31; `[n]` 80+n (primitive) or A0+n (constructed);
`[APPLICATION n]` 40+n (primitive) or 60+n (constructed). Tags are implicit, except on a CHOICE (`not [2] Filter`), where they are explicit.
-/
namespace Laurelin.Spec.Wire
open Laurelin Codec PagedS

/-! ## BER -/

/-- the octets that may stand for something -/
abbrev Enc := Bytes → Prop

/-- What may vary: the octet for TRUE, whether a component may be written that has its default value, and whether integers and booleans may be written in forms that X.690 excludes. -/
structure Rules where
  isTrue : UInt8 → Prop
  writesDefaults : Prop
  loose : Prop := False

/-- X.690 8.2.2 (any octet but zero), 11.5 does not apply to BER -/
def x690 : Rules := { isTrue := fun b => b ≠ 0, writesDefaults := True }
/-- RFC 4511 5.1 (3), (4): TRUE is FF; values equal to the default are absent -/
def strict : Rules := { isTrue := fun b => b = 0xFF, writesDefaults := False }
/-- X.690, but integers may have more octets than needed, or none for zero, and booleans any number of octets, false if all are zero -/
def loosely : Rules := { isTrue := fun b => b ≠ 0, writesDefaults := True, loose := True }

/-- octets of a sensible number, without a length in the form that X.690 8.1.3.5 (c) reserves: FF and 127 octets, which start with 118 zeros if they are such a number -/
def Plain (raw : Bytes) : Prop := raw.length ≤ 256 ^ 8 ∧ ∀ p q, raw ≠ p ++ (0xFF :: List.replicate 118 0) ++ q

def tlv (tag : UInt8) (content : Enc) : Enc := fun bs => ∃ c, content c ∧ IsTlv tag c bs
def octets (b : Bytes) : Enc := fun c => c = b
def nothing : Enc := fun c => c = []
/-- X.690 8.3: two's complement; 8.3.2: the first nine bits are not all equal -/
def integer (R : Rules) (z : Int) : Enc := fun c =>
  (IsInt z c ∧ ∀ a b r, c = a :: b :: r → ¬ (a = 0 ∧ b.toNat < 128) ∧ ¬ (a = 255 ∧ 128 ≤ b.toNat)) ∨ (R.loose ∧ (IsInt z c ∨ (z = 0 ∧ c = [])))
/-- X.690 8.2 -/
def boolean (R : Rules) (b : Bool) : Enc := fun c => (∃ o, c = [o] ∧ if b then R.isTrue o else o = 0) ∨ (R.loose ∧ (b = true ↔ ∃ o ∈ c, o ≠ 0))
/-- one after the other -/
def all : List Enc → Enc
  | [] => nothing
  | E :: Es => fun c => ∃ a b, c = a ++ b ∧ E a ∧ all Es b
/-- OPTIONAL -/
def opt {A : Type} (E : A → Enc) : Option A → Enc
  | none => nothing
  | some a => E a
/-- BOOLEAN DEFAULT FALSE -/
def flag (R : Rules) (tag : UInt8) (b : Bool) : Enc := fun c =>
  (b = false ∧ c = []) ∨ ((b = true ∨ R.writesDefaults) ∧ tlv tag (boolean R b) c)

/-! ## Messages -/

inductive Sub where
  | initial (v : Bytes) | any (v : Bytes) | final (v : Bytes)

inductive Filter where
  | and (l : List Filter)
  | or (l : List Filter)
  | not (f : Filter)
  | equalityMatch (attr value : Bytes)
  | substrings (attr : Bytes) (subs : List Sub)
  | greaterOrEqual (attr value : Bytes)
  | lessOrEqual (attr value : Bytes)
  | present (attr : Bytes)
  | approxMatch (attr value : Bytes)
  | extensibleMatch (rule attr : Option Bytes) (value : Bytes) (dnAttributes : Bool)

inductive Auth where
  | simple (password : Bytes)
  | sasl (mechanism : Bytes) (credentials : Option Bytes)

structure Attr where
  type : Bytes
  vals : List Bytes

structure Result where
  code : Int
  matchedDN : Bytes
  diagnostic : Bytes
  referral : Option (List Bytes)

inductive Op where
  | bindRequest (version : Int) (name : Bytes) (auth : Auth)
  | bindResponse (r : Result) (creds : Option Bytes)
  | unbindRequest
  | searchRequest (base : Bytes) (scope deref sizeLimit timeLimit : Int) (typesOnly : Bool) (filter : Filter) (attrs : List Bytes)
  | searchResEntry (name : Bytes) (attrs : List Attr)
  | searchResDone (r : Result)
  | searchResRef (uris : List Bytes)
  | modifyRequest (object : Bytes) (changes : List (Int × Attr))
  | modifyResponse (r : Result)
  | addRequest (entry : Bytes) (attrs : List Attr)
  | addResponse (r : Result)
  | delRequest (entry : Bytes)
  | delResponse (r : Result)
  | modDNRequest (entry newrdn : Bytes) (deleteoldrdn : Bool) (newSuperior : Option Bytes)
  | modDNResponse (r : Result)
  | compareRequest (entry attr value : Bytes)
  | compareResponse (r : Result)
  | abandonRequest (id : Int)
  | extendedReq (name : Bytes) (value : Option Bytes)
  | extendedResp (r : Result) (name value : Option Bytes)
  | intermediateResponse (name value : Option Bytes)

structure Control where
  oid : Bytes
  critical : Bool
  value : Option Bytes

structure Message where
  id : Int
  op : Op
  controls : Option (List Control)

/-- the identifiers of the alternatives of `protocolOp` (RFC 4511 4.1.1) -/
def Op.name : Op → Str
  | .bindRequest .. => str "bindRequest" | .bindResponse .. => str "bindResponse" | .unbindRequest => str "unbindRequest" | .searchRequest .. => str "searchRequest"
  | .searchResEntry .. => str "searchResEntry" | .searchResDone .. => str "searchResDone" | .searchResRef .. => str "searchResRef" | .modifyRequest .. => str "modifyRequest"
  | .modifyResponse .. => str "modifyResponse" | .addRequest .. => str "addRequest" | .addResponse .. => str "addResponse" | .delRequest .. => str "delRequest"
  | .delResponse .. => str "delResponse" | .modDNRequest .. => str "modDNRequest" | .modDNResponse .. => str "modDNResponse" | .compareRequest .. => str "compareRequest"
  | .compareResponse .. => str "compareResponse" | .abandonRequest .. => str "abandonRequest" | .extendedReq .. => str "extendedReq" | .extendedResp .. => str "extendedResp"
  | .intermediateResponse .. => str "intermediateResponse"

/-- the ranges RFC 4511 gives: INTEGER (0 .. maxInt), version INTEGER (1 .. 127) -/
def Int0Max (z : Int) : Prop := 0 ≤ z ∧ z ≤ 2147483647
def Op.Valid : Op → Prop
  | .bindRequest v _ _ => 1 ≤ v ∧ v ≤ 127
  | .searchRequest _ _ _ s t _ _ _ => Int0Max s ∧ Int0Max t
  | .abandonRequest i => Int0Max i
  | _ => True
def Message.Valid (m : Message) : Prop := Int0Max m.id ∧ m.op.Valid

/-! ## Encodings -/

abbrev str4 (b : Bytes) : Enc := tlv 0x04 (octets b)
abbrev int2 (R : Rules) (z : Int) : Enc := tlv 0x02 (integer R z)
abbrev enum (R : Rules) (z : Int) : Enc := tlv 0x0A (integer R z)

section
variable (R : Rules)

def Sub.enc : Sub → Enc
  | .initial v => tlv 0x80 (octets v)
  | .any v => tlv 0x81 (octets v)
  | .final v => tlv 0x82 (octets v)

/-- AttributeValueAssertion -/
def ava (attr value : Bytes) : Enc := all [str4 attr, str4 value]

mutual
def Filter.enc : Filter → Enc
  | .and l => tlv 0xA0 (filters l)
  | .or l => tlv 0xA1 (filters l)
  | .not f => tlv 0xA2 (Filter.enc f)
  | .equalityMatch a v => tlv 0xA3 (ava a v)
  | .substrings a l => tlv 0xA4 (all [str4 a, tlv 0x30 (all (l.map Sub.enc))])
  | .greaterOrEqual a v => tlv 0xA5 (ava a v)
  | .lessOrEqual a v => tlv 0xA6 (ava a v)
  | .present a => tlv 0x87 (octets a)
  | .approxMatch a v => tlv 0xA8 (ava a v)
  | .extensibleMatch rule attr v dn => tlv 0xA9 (all [opt (fun b => tlv 0x81 (octets b)) rule, opt (fun b => tlv 0x82 (octets b)) attr, tlv 0x83 (octets v), flag R 0x84 dn])
/-- SET OF Filter: `all`, one after the other -/
def filters : List Filter → Enc
  | [] => nothing
  | f :: l => fun c => ∃ a b, c = a ++ b ∧ Filter.enc f a ∧ filters l b
end

def Auth.enc : Auth → Enc
  | .simple p => tlv 0x80 (octets p)
  | .sasl m c => tlv 0xA3 (all [str4 m, opt str4 c])

def Attr.enc (a : Attr) : Enc := tlv 0x30 (all [str4 a.type, tlv 0x31 (all (a.vals.map str4))])

/-- COMPONENTS OF LDAPResult -/
def Result.parts (r : Result) : List Enc := [enum R r.code, str4 r.matchedDN, str4 r.diagnostic, opt (fun l => tlv 0xA3 (all (l.map str4))) r.referral]

def Op.enc : Op → Enc
  | .bindRequest v n a => tlv 0x60 (all [int2 R v, str4 n, a.enc])
  | .bindResponse r c => tlv 0x61 (all (r.parts R ++ [opt (fun b => tlv 0x87 (octets b)) c]))
  | .unbindRequest => tlv 0x42 nothing
  | .searchRequest b s d l t y f a =>
    tlv 0x63 (all [str4 b, enum R s, enum R d, int2 R l, int2 R t, tlv 0x01 (boolean R y), f.enc R, tlv 0x30 (all (a.map str4))])
  | .searchResEntry n a => tlv 0x64 (all [str4 n, tlv 0x30 (all (a.map Attr.enc))])
  | .searchResDone r => tlv 0x65 (all (r.parts R))
  | .searchResRef l => tlv 0x73 (all (l.map str4))
  | .modifyRequest o l => tlv 0x66 (all [str4 o, tlv 0x30 (all (l.map (fun p => tlv 0x30 (all [enum R p.1, p.2.enc]))))])
  | .modifyResponse r => tlv 0x67 (all (r.parts R))
  | .addRequest e a => tlv 0x68 (all [str4 e, tlv 0x30 (all (a.map Attr.enc))])
  | .addResponse r => tlv 0x69 (all (r.parts R))
  | .delRequest e => tlv 0x4A (octets e)
  | .delResponse r => tlv 0x6B (all (r.parts R))
  | .modDNRequest e n d s => tlv 0x6C (all [str4 e, str4 n, tlv 0x01 (boolean R d), opt (fun b => tlv 0x80 (octets b)) s])
  | .modDNResponse r => tlv 0x6D (all (r.parts R))
  | .compareRequest e a v => tlv 0x6E (all [str4 e, tlv 0x30 (ava a v)])
  | .compareResponse r => tlv 0x6F (all (r.parts R))
  | .abandonRequest i => tlv 0x50 (integer R i)
  | .extendedReq n v => tlv 0x77 (all [tlv 0x80 (octets n), opt (fun b => tlv 0x81 (octets b)) v])
  | .extendedResp r n v => tlv 0x78 (all (r.parts R ++ [opt (fun b => tlv 0x8A (octets b)) n, opt (fun b => tlv 0x8B (octets b)) v]))
  | .intermediateResponse n v => tlv 0x79 (all [opt (fun b => tlv 0x80 (octets b)) n, opt (fun b => tlv 0x81 (octets b)) v])

def Control.enc (c : Control) : Enc := tlv 0x30 (all [str4 c.oid, flag R 0x01 c.critical, opt str4 c.value])

def Message.enc (m : Message) : Enc := tlv 0x30 (all [int2 R m.id, m.op.enc R, opt (fun l => tlv 0xA0 (all (l.map (Control.enc R)))) m.controls])
end

end Laurelin.Spec.Wire
