import Verif.Spec.Requests
import Verif.Model.Session
/-!
Specification: how a call ends, given the operation in the message that answers it (RFC 4511 4.1.9, 4.10, 4.12; RFC 4532 for "Who am I?"). No response controls.
-/
namespace Laurelin.Spec.SessionS
open Laurelin Codec Rfc4511 Session Spec.Wire

/-- calls that wait for one message -/
def Single : Call → Prop
  | .simpleBind .. | .compare .. | .add .. | .delete .. | .modDn .. | .modify .. | .extended .. => True
  | _ => False

/-- the result, if the response is the one that RFC 4511 defines for the request -/
def resultFor : Call → Op → Option Result
  | .simpleBind .., .bindResponse r _ => some r
  | .compare .., .compareResponse r => some r
  | .add .., .addResponse r => some r
  | .delete .., .delResponse r => some r
  | .modDn .., .modDNResponse r => some r
  | .modify .., .modifyResponse r => some r
  | .extended .., .extendedResp r _ _ => some r
  | _, _ => none

/-- a successful response: compareTrue (6) and compareFalse (5) for a comparison, the response value (empty if there is none) for an extended operation -/
def Succeeds : Call → Op → Ret → Prop
  | .compare .., .compareResponse r, ret => (r.code = 6 ∧ ret = .truth true) ∨ (r.code = 5 ∧ ret = .truth false)
  | .extended .., .extendedResp r _ v, ret => r.code = 0 ∧ ∃ s, v.getD [] = utf8Enc s ∧ ret = .text s
  | c, o, ret => ∃ r, resultFor c o = some r ∧ r.code = 0 ∧ ret = .done

/-- a response of the right kind with another code -/
def Fails : Call → Op → Prop
  | .compare .., .compareResponse r => r.code ≠ 6 ∧ r.code ≠ 5
  | c, o => ∃ r, resultFor c o = some r ∧ r.code ≠ 0

/-- a response of another kind, and not the intermediate one that an extended operation may get -/
def Odd (c : Call) (o : Op) : Prop := resultFor c o = none ∧ ∀ r, (∃ n v, r = Op.intermediateResponse n v) → o ≠ r

/-- an exchange: a call, the octets that arrive while it waits, namely late messages for earlier requests and then the answer, in any encodings and any pieces -/
structure Exchange where
  call : Call
  ctrls : Option (List Controls.Wire)
  late : List (Message × Bytes)
  answer : Message × Bytes
  pieces : List Bytes

/-- the exchange when the next message ID is `mid`: the call can be sent at all; `recv` gives no empty piece -/
structure Exchange.Ok (mid : Nat) (x : Exchange) : Prop where
  single : Single x.call
  sendable : ∃ o b, asks x.call = some o ∧ (message mid o x.ctrls).Valid ∧ (message mid o x.ctrls).enc x690 b
  oid : ∀ o v, x.call = .extended o v → ∀ c ∈ o, c.toNat < 128
  oids : ∀ l, x.ctrls = some l → ∀ w ∈ l, ∀ c ∈ w.oid, c.toNat < 128
  late : ∀ p ∈ x.late, p.1.Valid ∧ p.1.id ≠ 0 ∧ p.1.id < mid ∧ p.1.enc x690 p.2
  answer : x.answer.1.Valid ∧ x.answer.1.id = mid ∧ x.answer.1.controls = none ∧ x.answer.1.enc x690 x.answer.2
  pieces : (∀ c ∈ x.pieces, c ≠ []) ∧ x.pieces.flatten = x.late.flatMap Prod.snd ++ x.answer.2

end Laurelin.Spec.SessionS
