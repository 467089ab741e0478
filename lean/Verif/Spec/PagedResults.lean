import Verif.Model.PagedResults
/-! Specification: BER (X.690 8.1, 8.3, 8.7, 8.9) encodings of RFC 2696's control value, as relations; and what a server that pages does. -/
namespace Laurelin.Spec.PagedS
open Laurelin Codec

/-- value of octets read as a number, most significant first -/
inductive Unsigned : Bytes → Nat → Prop
  | nil : Unsigned [] 0
  | snoc {bs n} (b : UInt8) : Unsigned bs n → Unsigned (bs ++ [b]) (n * 256 + b.toNat)

/-- X.690 8.1.3, definite form: short, or long with any number of octets up to 126 -/
inductive IsLen : Nat → Bytes → Prop
  | short (b : UInt8) : b.toNat < 128 → IsLen b.toNat [b]
  | long {n bs} (b : UInt8) : bs ≠ [] → bs.length ≤ 126 → b.toNat = 128 + bs.length → Unsigned bs n → IsLen n (b :: bs)

/-- an element: tag, length, contents -/
def IsTlv (tag : UInt8) (content bytes : Bytes) : Prop := ∃ l, IsLen content.length l ∧ bytes = [tag] ++ l ++ content

/-- X.690 8.3: the value of the contents of an INTEGER -/
def IsInt (z : Int) (bs : Bytes) : Prop :=
  ∃ b rest n, bs = b :: rest ∧ Unsigned bs n ∧ z = if b.toNat < 128 then (n : Int) else (n : Int) - 256 ^ bs.length

/-- RFC 2696: `SEQUENCE { size INTEGER (0..maxInt), cookie OCTET STRING }` -/
def IsValue (size : Int) (cookie bytes : Bytes) : Prop :=
  0 ≤ size ∧ size ≤ 2147483647 ∧ ∃ ib i o, IsInt size ib ∧ IsTlv 0x02 ib i ∧ IsTlv 0x04 cookie o ∧ IsTlv 0x30 (i ++ o) bytes

/-- A server that pages: `page c` are the entries for cookie `c`, `next c` the cookie for those after. It answers every encoding of a request
with some encoding of its answer. -/
def Pages {α : Type} (page : Bytes → List α) (next : Bytes → Bytes) (srv : Bytes → List α × Bytes) : Prop :=
  ∀ n c v, IsValue n c v → (srv v).1 = page c ∧ ∃ est, IsValue est (next c) (srv v).2

/-- the entries from cookie `c` on, until the server returns an empty cookie; `cookies` are those it returns before -/
inductive Chain {α : Type} (page : Bytes → List α) (next : Bytes → Bytes) : Bytes → List α → List Bytes → Prop
  | last {c} : next c = [] → Chain page next c (page c) []
  | more {c l cs} : next c ≠ [] → Chain page next (next c) l cs → Chain page next c (page c ++ l) (next c :: cs)

end Laurelin.Spec.PagedS
