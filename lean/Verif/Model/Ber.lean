import Verif.Model.Codec
/-!
# The part of BER that control values need

pyasn1 is an outside library (the repo's `modules/pyasn1` submodule is empty here): its encoder and decoder are modelled for a SEQUENCE of an INTEGER
and an OCTET STRING. Encoding uses definite lengths, as pyasn1's BER encoder does by default. Decoding takes definite lengths and primitive
strings; indefinite lengths and constructed strings, which pyasn1 also decodes, are errors here.
-/
namespace Laurelin
namespace Ber
open Codec

/-- unsigned, big-endian -/
def beNat (bs : Bytes) : Nat := bs.foldl (fun a b => a * 256 + b.toNat) 0

/-- the digits of `n`, most significant first, before `acc` (`fuel` is at least the number of digits) -/
def digits : Nat → Nat → Bytes → Bytes
  | 0, _, acc => acc
  | fuel + 1, n, acc => if n = 0 then acc else digits fuel (n / 256) (byte (n % 256) :: acc)

/-- shortest big-endian form; nothing for 0 -/
def natBytes (n : Nat) : Bytes := digits n n []

/-- the contents of a non-negative INTEGER: shortest two's complement form -/
def intBytes (n : Nat) : Bytes :=
  match natBytes n with
  | [] => [0]
  | b :: bs => if b.toNat < 128 then b :: bs else 0 :: b :: bs

/-- two's complement; pyasn1 reads no octets as 0 -/
def intOf : Bytes → Int
  | [] => 0
  | b :: bs => if b.toNat < 128 then Int.ofNat (beNat (b :: bs)) else Int.ofNat (beNat (b :: bs)) - Int.ofNat (256 ^ (bs.length + 1))

/-- length octets; more than 126 of them are refused -/
def lenBytes (n : Nat) : Option Bytes :=
  if n < 128 then some [byte n]
  else if (natBytes n).length > 126 then none
  else some (byte (128 + (natBytes n).length) :: natBytes n)

def tlv (tag : UInt8) (content : Bytes) : Option Bytes := (lenBytes content.length).map (fun l => tag :: (l ++ content))

/-- length octets read: the length and what follows -/
def readLen : Bytes → Option (Nat × Bytes)
  | [] => none
  | b :: r =>
    if b.toNat < 128 then some (b.toNat, r)
    else if b.toNat = 128 then none
    else if r.length < b.toNat - 128 then none
    else some (beNat (r.take (b.toNat - 128)), r.drop (b.toNat - 128))

/-- one element with the given tag: its contents and what follows -/
def readTlv (tag : UInt8) : Bytes → Option (Bytes × Bytes)
  | [] => none
  | t :: r =>
    if t = tag then
      match readLen r with
      | none => none
      | some (n, r) => if r.length < n then none else some (r.take n, r.drop n)
    else none

end Ber
end Laurelin
