import Verif.Model.Ber
import Verif.Model.Controls
/-!
# Paged results (laurelin/extensions/pagedresults.py)

The text encoding of `Cookie` is pyasn1's default for `OctetString`, which depends on its version: it is the parameter `cs`. Not modelled: tuples whose
first component is not an integer, or whose second is neither text nor bytes.
-/
namespace Laurelin
namespace Paged
open Codec Ber

inductive Charset where
  | ascii
  | latin1
  | utf8
  deriving DecidableEq, Repr

/-- one byte per character, below `lim` -/
def encByte (lim : Nat) : Str → Option Bytes
  | [] => some []
  | c :: s => if c.toNat < lim then (encByte lim s).map (byte c.toNat :: ·) else none

def decByte (lim : Nat) : Bytes → Option Str
  | [] => some []
  | b :: bs => if b.toNat < lim then (decByte lim bs).map (Char.ofNat b.toNat :: ·) else none

def Charset.enc : Charset → Str → Option Bytes
  | .ascii, s => encByte 128 s
  | .latin1, s => encByte 256 s
  | .utf8, s => some (utf8Enc s)

def Charset.dec : Charset → Bytes → Option Str
  | .ascii, b => decByte 128 b
  | .latin1, b => decByte 256 b
  | .utf8, b => utf8Dec b

/-- a cookie as the caller gives it -/
inductive CookieArg where
  | text (s : Str)
  | bytes (b : Bytes)
  deriving DecidableEq, Repr

/-- the value of the `paged` keyword; `int` includes `bool` -/
inductive PageArg where
  | int (n : Int)
  | pair (n : Int) (cookie : CookieArg)
  | tupleOther
  | other
  deriving DecidableEq, Repr

abbrev maxInt : Int := 2147483647

/-- `Cookie(cookie)`, pagedresults.py:92 -/
def cookieBytes (cs : Charset) : CookieArg → Except Err Bytes
  | .bytes b => .ok b
  | .text s =>
    match cs.enc s with
    | some b => .ok b
    | none => .error .asn1Error

/-- pagedresults.py:90-93: `Size(page_size)` is constrained to 0..maxInt -/
def encodeValue (cs : Charset) (n : Int) (cookie : CookieArg) : Except Err Bytes :=
  if n < 0 ∨ n > maxInt then .error .asn1Error
  else
    match cookieBytes cs cookie with
    | .error e => .error e
    | .ok c =>
      match tlv 0x02 (intBytes n.toNat), tlv 0x04 c with
      | some i, some o =>
        match tlv 0x30 (i ++ o) with
        | some b => .ok b
        | none => .error .asn1Error
      | _, _ => .error .asn1Error

/-- `prepare`, pagedresults.py:74-94, up to the call of the base method -/
def prepare (cs : Charset) : PageArg → Except Err Bytes
  | .int n => encodeValue cs n (.text [])
  | .pair n c => encodeValue cs n c
  | .tupleOther => .error .valueError
  | .other => .error .typeError

/-- `ber_decode(ctrl_value, asn1Spec=RealSearchControlValue())`: size, cookie, and what follows the sequence -/
def decodeValue (v : Bytes) : Option (Int × Bytes × Bytes) :=
  match readTlv 0x30 v with
  | none => none
  | some (content, left) =>
    match readTlv 0x02 content with
    | none => none
    | some (ib, r) =>
      match readTlv 0x04 r with
      | some (cookie, []) => if intOf ib < 0 ∨ intOf ib > maxInt then none else some (intOf ib, cookie, left)
      | _ => none

/-- `get_string_component`, protoutils.py:65-72: the empty string when the octets do not decode -/
def cookieText (cs : Charset) (b : Bytes) : Str := (cs.dec b).getD []

/-- `handle`, pagedresults.py:96-101 -/
def handle (cs : Charset) (v : Bytes) : Except Err Str :=
  match decodeValue v with
  | none => .error .asn1Error
  | some (_, cookie, left) => if left ≠ [] then .error .ldapError else .ok (cookieText cs cookie)

abbrev oid : Str := str "1.2.840.113556.1.4.319"

/-- pagedresults.py:67-72: the control class -/
def cls (cs : Charset) : Controls.Cls PageArg Str where
  method := .names [str "search"]
  keyword := str "paged"
  responseAttr := str "page_cookie"
  requestOid := oid
  responseOid := oid
  prepare := fun a => match prepare cs a with
    | .error e => .error e
    | .ok b => .ok (b.map UInt8.toNat)
  handle := fun v => match v with
    | none => .error .asn1Error
    | some b => handle cs (b.map byte)

/-- The documented loop (pagedresults.py:16-30): ask for a page with the last cookie until it is empty. `srv` answers a control value with
entries and a control value. `fuel`: the number of requests allowed. -/
def follow {α : Type} (cs : Charset) (srv : Bytes → List α × Bytes) (n : Int) : Nat → CookieArg → Except Err (List α)
  | 0, _ => .error .recursion
  | fuel + 1, c =>
    match prepare cs (.pair n c) with
    | .error e => .error e
    | .ok v =>
      match handle cs (srv v).2 with
      | .error e => .error e
      | .ok [] => .ok (srv v).1
      | .ok (a :: cookie) =>
        match follow cs srv n fuel (.text (a :: cookie)) with
        | .error e => .error e
        | .ok l => .ok ((srv v).1 ++ l)

end Paged
end Laurelin
