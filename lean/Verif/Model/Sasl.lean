import Verif.Model.Received
/-!
# The SASL exchange and security layer (laurelin/ldap/base.py:455-521, net.py:244-301, 312-343)

The SASL library (puresasl) is outside: a mechanism is a state machine given as a parameter. State of the connection (bound, mechanisms, message IDs of shared sockets) is in `Model/Conn.lean`;
here are the data that are exchanged.
-/
namespace Laurelin
namespace Sasl
open Codec Asn1 Rfc4511 Received

/-- `puresasl.client.SASLClient` with a chosen mechanism: `process(challenge)` (net.py:271-274), `wrap`, `unwrap`, `complete` -/
structure Mechanism (S : Type) where
  process : S → Option Bytes → Except Err (Option Bytes × S)
  wrap : S → Bytes → Except Err (Bytes × S)
  unwrap : S → Bytes → Except Err (Bytes × S)
  complete : S → Bool

/-- a bind response: result code, `serverSaslCreds`, response controls; base.py:502-504. `none`: not a bind response -/
def bindAnswer (v : Val) : Option (Int × Option Bytes × Option Val) :=
  match unpack (str "bindResponse") v with
  | none => none
  | some (r, cs) => (intField bindRespComps (str "resultCode") r).map (fun c => (c, (field bindRespComps (str "serverSaslCreds") r).bind octetsOf, cs))

inductive Ending where
  /-- the connection is bound; response controls. Then `recheck_sasl_mechs` (Model/Conn.lean) and `handle_response` (Model/Controls.lean) -/
  | bound (ctrls : Option Val)
  | raised (e : Err)
  | waiting

/-- what was written to the socket, how it ended, the mechanism's state, the next message ID -/
structure Run (S : Type) where
  sent : List Bytes
  ending : Ending
  state : S
  next : Int

def Run.after {S : Type} (b : Bytes) (r : Run S) : Run S := { r with sent := b :: r.sent }

/-- `_prep_message` and `send_message` with a SASL client, net.py:276-301. An ID is used up even if nothing is sent. -/
def sendWrapped {S : Type} (m : Mechanism S) (s : S) (mid : Int) (op : Option (Str × Val)) (ctrls : Option (List Controls.Wire)) : Except Err (Bytes × S) :=
  match send mid op ctrls with
  | none => .error .asn1Error
  | some bs => m.wrap s bs

/-- the loop of `sasl_bind`, base.py:487-520; `answers`: what `recv_one` gives for one request after the other -/
def exchange {S : Type} (m : Mechanism S) (mech : Str) (ctrls : Option (List Controls.Wire)) : S → Option Bytes → Int → List Val → Run S
  | s, response, mid, [] =>
    match sendWrapped m s mid (saslBindOp mech (response.map .raw)) ctrls with
    | .error e => ⟨[], .raised e, s, mid + 1⟩
    | .ok (b, s) => ⟨[b], .waiting, s, mid + 1⟩
  | s, response, mid, v :: vs =>
    match sendWrapped m s mid (saslBindOp mech (response.map .raw)) ctrls with
    | .error e => ⟨[], .raised e, s, mid + 1⟩
    | .ok (b, s) =>
      match bindAnswer v with
      | none => ⟨[b], .raised .unexpectedResponse, s, mid + 1⟩
      | some (code, creds, cs) =>
        if code = 14 then
          match m.process s creds with
          | .error e => ⟨[b], .raised e, s, mid + 1⟩
          | .ok (r, s) => (exchange m mech ctrls s r (mid + 1) vs).after b
        else if code = 0 then ⟨[b], .bound cs, s, mid + 1⟩
        else ⟨[b], .raised .ldapError, s, mid + 1⟩

/-- `recv` and `unwrap`, net.py:336-339: each piece that arrives is unwrapped by itself. What the reading loop gets, and the exception that ends it. -/
def unwrapped {S : Type} (m : Mechanism S) : S → List Bytes → List Bytes × Option Err
  | _, [] => ([], none)
  | s, c :: cs =>
    match m.unwrap s c with
    | .error e => ([], some e)
    | .ok (p, s) => (p :: (unwrapped m s cs).1, (unwrapped m s cs).2)

end Sasl
end Laurelin
