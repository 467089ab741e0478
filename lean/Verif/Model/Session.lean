import Verif.Model.Received
/-!
# One operation after the other on a connection (laurelin/ldap/base.py, net.py)

`simple_bind`, `compare`, `add`, `delete`, `mod_dn`, `modify`, `who_am_i` from their processed arguments to what they return: the request is written to the socket, one message with its ID is
taken from it, and read. The receiving loop is that of `Model/Net.lean`, for any codec. Simplifications: no SASL layer (`Model/Sasl.lean`); checks before the request
(unbound, validation, tags, supported extensions) are in the other models; what is set on the returned object are the response controls of `Model/Controls.lean`, not shown here.
-/
namespace Laurelin
namespace Session
open Codec Asn1 Rfc4511 Received

/-- what a call returns: an object or response without further contents, the truth of a comparison, a text -/
inductive Ret where
  | done
  | truth (b : Bool)
  | text (s : Str)
  deriving DecidableEq, Repr

inductive Outcome where
  | returns (r : Ret)
  | raises (e : Err)
  | waits
  deriving DecidableEq, Repr

/-- the response waited for: base.py:414, 765, 829, 922, 952, 1043. `saslBind` is in `Model/Sasl.lean`, `search` in `Model/Search.lean`; `unbind` and `abandon` have no response -/
def waitsFor : Call → Str
  | .simpleBind .. => str "bindResponse"
  | .compare .. => str "compareResponse"
  | .add .. => str "addResponse"
  | .delete .. => str "delResponse"
  | .modDn .. => str "modDNResponse"
  | .modify .. => str "modifyResponse"
  | .extended .. => str "extendedResp"
  | _ => []

/-- `get_string_component`, protoutils.py:65-72: nothing for a component that is not set. -/
def stringComponent (comps : Comps) (name : Str) (v : Val) : Except Err Str :=
  match field comps name v with
  | none => .ok []
  | some w =>
    match textOf w with
    | some s => .ok s
    | none => .error .ldapUnicode

/-- `ExtendedResponseHandle._handle_msg` with `require_success=True`, then `get_string_component(xr, 'responseValue')`, base.py:1168-1170, 1634-1650. The name of the response,
which is only logged, is not read here. -/
def extendedValue (v : Val) : Except Err Str :=
  match unpack (str "intermediateResponse") v with
  | some (ir, _) => stringComponent intermediateComps (str "responseValue") ir
  | none =>
    match unpack (str "extendedResp") v with
    | none => .error .unexpectedResponse
    | some (xr, _) =>
      match intField extendedRespComps (str "resultCode") xr with
      | some z => if z = 0 then stringComponent extendedRespComps (str "responseValue") xr else .error .ldapError
      | none => .error .asn1Error

variable {V R : Type}

/-- how the call ends, given the message it got: `_success_result` (base.py:365-383), `compare` (base.py:766-779), `add` (base.py:829-837), `who_am_i` -/
def finish (reg : Controls.Reg V R) (own : List Str) (c : Call) (v : Val) : Outcome :=
  match c with
  | .extended .. =>
    match extendedValue v with
    | .ok s => .returns (.text s)
    | .error e => .raises e
  | c =>
    match readResult (waitsFor c) v with
    | none => .raises .ldapUnicode
    | some r =>
      let resp : Search.Resp := match r with
        | some (code, ctrls) => ⟨true, code, ctrls⟩
        | none => ⟨false, 0, []⟩
      match c with
      | .compare .. =>
        match (Search.compareOp reg own false (.ok ()) (.ok ()) (some resp)).1 with
        | some (.ok (b, _)) => .returns (.truth b)
        | some (.error e) => .raises e
        | none => .waits
      | _ =>
        match Search.successResult reg own (some resp) with
        | some (.ok _) => .returns .done
        | some (.error e) => .raises e
        | none => .waits

/-- `_next_message_id` and the receiving side of the socket, net.py:62-78 -/
structure St (M : Type) where
  next : Nat
  sock : Net.Sock UInt8 M

/-- a fresh connection -/
def St.init {M : Type} : St M := ⟨1, (Net.World.init []).sock⟩

/-- A call: `send_message` (net.py:276-301), then `recv_one` (net.py:303-310) while these pieces arrive; the octets written, how the call ends. -/
def request {M : Type} (C : Net.Codec UInt8 M) (view : M → Val) (reg : Controls.Reg V R) (own : List Str) (st : St M) (c : Call) (ctrls : Option (List Controls.Wire)) (arrives : List Bytes) :
    (Option Bytes × Outcome) × St M :=
  match send st.next c.op ctrls with
  | none => ((none, .raises .asn1Error), { next := st.next + 1, sock := { st.sock with chunks := st.sock.chunks ++ arrives } })
  | some bs =>
    match Net.recvOne C st.next { st.sock with chunks := st.sock.chunks ++ arrives } with
    | (.yields m, s) => ((some bs, finish reg own c (view m)), ⟨st.next + 1, s⟩)
    | (.unsolicited _, s) => ((some bs, .raises .unsolicited), ⟨st.next + 1, s⟩)
    | (.stop, s) => ((some bs, .raises .runtimeError), ⟨st.next + 1, s⟩)
    | (.blocked, s) => ((some bs, .waits), ⟨st.next + 1, s⟩)

/-- calls one after the other, each with what arrives while it waits -/
def run {M : Type} (C : Net.Codec UInt8 M) (view : M → Val) (reg : Controls.Reg V R) (own : List Str) : St M → List (Call × Option (List Controls.Wire) × List Bytes) → List (Option Bytes × Outcome)
  | _, [] => []
  | st, (c, ctrls, arrives) :: l =>
    let (o, st') := request C view reg own st c ctrls arrives
    o :: run C view reg own st' l

end Session
end Laurelin
