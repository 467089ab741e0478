import Verif.Spec.OverWire
import Verif.Spec.Session
/-!
Specification: a message that is among octets received.
-/
namespace Laurelin.Spec.AnsweredS
open Laurelin Codec Wire Rfc4511 Session SessionS

/-- Somewhere in these octets, without interruption, is an encoding of the message (X.690, but integers may be longer than needed and booleans may have any number of octets). -/
def Among (octets : Bytes) (m : Message) : Prop := m.Valid ∧ ∃ pre b post, octets = pre ++ b ++ post ∧ m.enc loosely b

/-- the call's own kind of response, saying that it succeeded; or an intermediate response to an extended operation -/
def Said (c : Call) (o : Op) (ret : Ret) : Prop :=
  Succeeds c o ret ∨ ∃ oid x n v s, c = .extended oid x ∧ o = .intermediateResponse n v ∧ v.getD [] = utf8Enc s ∧ ret = .text s

/-- `said s` is all that the other side has sent when it is in state `s` -/
def Records {S : Type} (said : S → Bytes) (peer : OverWire.Peer S) : Prop := ∀ s bs, said (peer s bs).1 = said s ++ (peer s bs).2.flatten

/-- these are the values, as text where they are UTF-8 -/
def AreValues (bs : List Bytes) (vs : List AVal) : Prop := vs.map AVal.bytes = bs ∧ ∀ v ∈ vs, Shows v.bytes v

/-- Among these octets are an entry and the end of a search with this ID; the attributes `got` are in that entry. -/
def Found (octets : Bytes) (id : Nat) (got : PDict Str (List AVal)) : Prop :=
  ∃ m m' : Message, m.id = (id : Int) ∧ m'.id = (id : Int) ∧ Among octets m ∧ Among octets m' ∧ (∃ r, m'.op = .searchResDone r ∧ (r.code = 0 ∨ r.code = 32 ∨ r.code = 10)) ∧
    ∃ dn attrs, m.op = .searchResEntry (utf8Enc dn) attrs ∧ ∀ k vs, (k, vs) ∈ got → ∃ a ∈ attrs, a.type = utf8Enc k ∧ AreValues a.vals vs

end Laurelin.Spec.AnsweredS
