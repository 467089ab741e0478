import Verif.Model.Ber
/-!
# Typed ASN.1 values and pyasn1's BER coder for them

`laurelin/ldap/rfc4511.py` declares the protocol as pyasn1 types; pyasn1 itself (an empty submodule of the repo) is an outside library. This file models
what the library does with such declarations: values built by component name, `ber_encode` (net.py:281) and `ber_decode(raw, asn1Spec=...)` (net.py:341).

Simplifications: a type is its whole tag, written as the identifier octet, as no type of rfc4511.py has a tag number above 30; values carry no type of
their own and are encoded by the type of the component they are set on (pyasn1 refuses a value of another type there); the exception for an impossible
value comes when encoding, not when building; the decoder takes definite lengths and primitive strings only (pyasn1 takes more); `bad` is any exception
of pyasn1 other than `SubstrateUnderrunError`.
-/
namespace Laurelin
namespace Asn1
open Codec

/-- `NamedType`, `OptionalNamedType`, `DefaultedNamedType` (all defaults of rfc4511.py are `False`: lines 442-444, 523-526) -/
inductive Kind where
  | required | optional | defaultFalse
  deriving DecidableEq, Repr

mutual
/-- pyasn1 types. `int` has its `ValueRangeConstraint`; `list` is `SequenceOf` and `SetOf`; `wrapped` is a `Choice` of one alternative with an explicit tag;
`self` is the type that rfc4511.py ties recursively (lines 660-663). -/
inductive Ty where
  | octets (tag : UInt8)
  | int (tag : UInt8) (range : Option (Int × Int))
  | bool (tag : UInt8)
  | null (tag : UInt8)
  | seq (tag : UInt8) (comps : Comps)
  | list (tag : UInt8) (elem : Ty)
  | choice (alts : Alts)
  | wrapped (tag : UInt8) (name : Str) (inner : Ty)
  | self
/-- the `componentType` of a `Sequence` -/
inductive Comps where
  | nil
  | cons (name : Str) (kind : Kind) (ty : Ty) (rest : Comps)
/-- the `componentType` of a `Choice` -/
inductive Alts where
  | nil
  | cons (name : Str) (ty : Ty) (rest : Alts)
end

mutual
/-- pyasn1 values -/
inductive Val where
  | octets (b : Bytes)
  | int (z : Int)
  | bool (b : Bool)
  | null
  | seq (fields : Items)
  | list (elems : Items)
  | choice (name : Str) (v : Val)
/-- components in order; `absent` for one that is not set -/
inductive Items where
  | nil
  | absent (rest : Items)
  | cons (v : Val) (rest : Items)
end

/-- equal to the default -/
def Val.isFalse : Val → Bool
  | .bool b => !b
  | _ => false

/-- `setComponentByPosition(i, x)` for i = 0, 1, ... -/
def Items.ofList : List Val → Items
  | [] => .nil
  | v :: l => .cons v (Items.ofList l)

/-- the value last set for a name -/
def lastSet (name : Str) : List (Str × Val) → Option Val
  | [] => none
  | (n, v) :: l =>
    match lastSet name l with
    | some w => some w
    | none => if n = name then some v else none

def Comps.names : Comps → List Str
  | .nil => []
  | .cons n _ _ r => n :: r.names

/-- the components, each with what was set for it, or its default -/
def Comps.fill (sets : List (Str × Val)) : Comps → Items
  | .nil => .nil
  | .cons n k _ r =>
    match lastSet n sets with
    | some v => .cons v (r.fill sets)
    | none => if k = .defaultFalse then .cons (.bool false) (r.fill sets) else .absent (r.fill sets)

/-- a `Sequence` after `setComponentByName` calls; an unknown name is an error -/
def mkSeq (comps : Comps) (sets : List (Str × Val)) : Option Val :=
  if sets.all (fun p => comps.names.contains p.1) then some (.seq (comps.fill sets)) else none

def Alts.byName (name : Str) : Alts → Option Ty
  | .nil => none
  | .cons n t r => if n = name then some t else r.byName name

/-- the identifier octet of a type that has one -/
def Ty.tag? : Ty → Option UInt8
  | .octets g => some g
  | .int g _ => some g
  | .bool g => some g
  | .null g => some g
  | .seq g _ => some g
  | .list g _ => some g
  | .wrapped g _ _ => some g
  | .choice _ => none
  | .self => none

def Alts.byTag (tag : UInt8) : Alts → Option (Str × Ty)
  | .nil => none
  | .cons n t r => if t.tag? = some tag then some (n, t) else r.byTag tag

/-- the alternatives of an untagged `Choice`; `R` are those of `self` -/
def Ty.alts? (R : Alts) : Ty → Option Alts
  | .choice a => some a
  | .self => some R
  | _ => none

def inRange (z : Int) : Option (Int × Int) → Bool
  | none => true
  | some (lo, hi) => decide (lo ≤ z) && decide (z ≤ hi)

/-- contents of an INTEGER: shortest two's complement form -/
def zBytes : Int → Bytes
  | .ofNat n => Ber.intBytes n
  | .negSucc n => (Ber.intBytes n).map (fun b => 255 - b)

/-! ## `ber_encode` -/

mutual
/-- pyasn1's BER encoder; TRUE is the octet 1, as pyasn1's BER (not DER) encoder writes it; a component equal to its default is not written -/
def encode (R : Alts) : Ty → Val → Option Bytes
  | t, .octets b =>
    match t with
    | .octets g => Ber.tlv g b
    | _ => none
  | t, .int z =>
    match t with
    | .int g r => if inRange z r then Ber.tlv g (zBytes z) else none
    | _ => none
  | t, .bool b =>
    match t with
    | .bool g => Ber.tlv g [if b then 1 else 0]
    | _ => none
  | t, .null =>
    match t with
    | .null g => Ber.tlv g []
    | _ => none
  | t, .seq fs =>
    match t with
    | .seq g comps =>
      match encodeComps R comps fs with
      | some c => Ber.tlv g c
      | none => none
    | _ => none
  | t, .list vs =>
    match t with
    | .list g e =>
      match encodeList R e vs with
      | some c => Ber.tlv g c
      | none => none
    | _ => none
  | t, .choice n v =>
    match t with
    | .wrapped g name inner =>
      if n = name then
        match encode R inner v with
        | some c => Ber.tlv g c
        | none => none
      else none
    | t =>
      match t.alts? R with
      | none => none
      | some alts =>
        match alts.byName n with
        | some t' => encode R t' v
        | none => none
def encodeList (R : Alts) : Ty → Items → Option Bytes
  | _, .nil => some []
  | _, .absent _ => none
  | e, .cons v r =>
    match encode R e v, encodeList R e r with
    | some a, some b => some (a ++ b)
    | _, _ => none
def encodeComps (R : Alts) : Comps → Items → Option Bytes
  | .nil, .nil => some []
  | .cons _ k _ cs, .absent r => if k = .optional then encodeComps R cs r else none
  | .cons _ k t cs, .cons v r =>
    match (if k = .defaultFalse ∧ v.isFalse = true then some [] else encode R t v), encodeComps R cs r with
    | some a, some b => some (a ++ b)
    | _, _ => none
  | _, _ => none
end

/-! ## `ber_decode` -/

/-- Result of decoding: a value; `SubstrateUnderrunError`; another exception -/
inductive Res (α : Type) where
  | ok (a : α)
  | underrun
  | bad
  deriving DecidableEq, Repr

/-- length octets -/
def length : Bytes → Res (Nat × Bytes)
  | [] => .underrun
  | b :: r =>
    if b.toNat < 128 then .ok (b.toNat, r)
    else if b.toNat = 128 then .bad
    else if r.length < b.toNat - 128 then .underrun
    else .ok (Ber.beNat (r.take (b.toNat - 128)), r.drop (b.toNat - 128))

/-- identifier octet, contents, what follows -/
def header : Bytes → Res (UInt8 × Bytes × Bytes)
  | [] => .underrun
  | t :: r =>
    if t.toNat % 32 = 31 then .bad
    else
      match length r with
      | .underrun => .underrun
      | .bad => .bad
      | .ok (n, r) => if r.length < n then .underrun else .ok (t, r.take n, r.drop n)

/-- does an element with this identifier octet belong to the type? -/
def Ty.accepts (R : Alts) (t : Ty) (tag : UInt8) : Bool :=
  match t.alts? R with
  | some alts => (alts.byTag tag).isSome
  | none => t.tag? == some tag

/-- the components of a `Sequence`, in order; `d` decodes one element -/
def decodeComps (R : Alts) (d : Ty → Bytes → Res (Val × Bytes)) : Comps → Bytes → Res Items
  | .nil, [] => .ok .nil
  | .nil, _ :: _ => .bad
  | .cons _ k t cs, bs =>
    match bs with
    | b :: _ =>
      if t.accepts R b then
        match d t bs with
        | .ok (v, r) =>
          match decodeComps R d cs r with
          | .ok fs => .ok (.cons v fs)
          | .underrun => .underrun
          | .bad => .bad
        | .underrun => .underrun
        | .bad => .bad
      else skip k (decodeComps R d cs bs)
    | [] => skip k (decodeComps R d cs [])
where
  /-- a component that is not there -/
  skip (k : Kind) (rest : Res Items) : Res Items :=
    match k, rest with
    | .required, _ => .bad
    | .optional, .ok fs => .ok (.absent fs)
    | .defaultFalse, .ok fs => .ok (.cons (.bool false) fs)
    | _, .underrun => .underrun
    | _, .bad => .bad

/-- the elements of a `SequenceOf`; the fuel is at least the number of octets -/
def decodeList (d : Bytes → Res (Val × Bytes)) : Nat → Bytes → Res Items
  | _, [] => .ok .nil
  | 0, _ :: _ => .bad
  | n + 1, b :: bs =>
    match d (b :: bs) with
    | .ok (v, r) =>
      match decodeList d n r with
      | .ok vs => .ok (.cons v vs)
      | .underrun => .underrun
      | .bad => .bad
    | .underrun => .underrun
    | .bad => .bad

/-- pyasn1's BER decoder with an `asn1Spec`: the value and what follows it. The fuel bounds the nesting: every two levels take at least an octet. -/
def decode (R : Alts) : Nat → Ty → Bytes → Res (Val × Bytes)
  | 0, _, _ => .bad
  | f + 1, t, bs =>
    match header bs with
    | .underrun => .underrun
    | .bad => .bad
    | .ok (tag, c, rest) =>
      match t with
      | .octets g => if tag = g then .ok (.octets c, rest) else .bad
      | .int g r => if tag = g ∧ inRange (Ber.intOf c) r then .ok (.int (Ber.intOf c), rest) else .bad
      | .bool g => if tag = g then .ok (.bool (Ber.intOf c != 0), rest) else .bad
      | .null g => if tag = g ∧ c = [] then .ok (.null, rest) else .bad
      | .seq g comps =>
        if tag = g then
          match decodeComps R (decode R f) comps c with
          | .ok fs => .ok (.seq fs, rest)
          | .underrun => .underrun
          | .bad => .bad
        else .bad
      | .list g e =>
        if tag = g then
          match decodeList (decode R f e) c.length c with
          | .ok vs => .ok (.list vs, rest)
          | .underrun => .underrun
          | .bad => .bad
        else .bad
      | .wrapped g name inner =>
        if tag = g then
          match decode R f inner c with
          | .ok (v, []) => .ok (.choice name v, rest)
          | .ok _ => .bad
          | .underrun => .underrun
          | .bad => .bad
        else .bad
      | t =>
        match t.alts? R with
        | none => .bad
        | some alts =>
          match alts.byTag tag with
          | none => .bad
          | some (name, t') =>
            match decode R f t' bs with
            | .ok (v, r) => .ok (.choice name v, r)
            | .underrun => .underrun
            | .bad => .bad

/-- `ber_decode(raw, asn1Spec=t)` -/
def berDecode (R : Alts) (t : Ty) (bs : Bytes) : Res (Val × Bytes) := decode R (2 * bs.length + 1) t bs

end Asn1
end Laurelin
