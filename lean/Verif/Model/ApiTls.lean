import Verif.Model.ApiLife
/-!
# StartTLS, down to the octets (laurelin/ldap/base.py:1128-1157, 1172-1208, 1622-1658; net.py:165-212)

`start_tls` on one `LDAP` object that has its socket for itself. The TLS handshake with the checks of the certificate (net.py:184-208; what they check: `Model/Tls.lean`) is a parameter: it turns the other side into
one that is spoken to through the TLS layer, or fails. Simplifications: those of `Model/ApiLife.lean`; a root DSE that is a reference handle is not kept (as in `refreshRootDse`).
-/
namespace Laurelin
namespace Api
open Codec Asn1 Rfc4511 OverWire

/-- a connection with `started_tls` of its socket (net.py:75) and the root DSE it has (base.py:356-358) -/
structure Secured (M S : Type) where
  client : Client M S
  started : Bool
  root : AttrsDict AVal

/-- `LDAP.OID_STARTTLS`, base.py:182 -/
def startTlsOid : Str := str "1.3.6.1.4.1.1466.20037"

/-- `recv_response` with `require_success=True`, base.py:1634-1650, 1657-1658: the name of the response is read for the log; an intermediate response is taken as it is -/
def responseOk (v : Val) : Except Err Unit :=
  match Received.unpack (str "intermediateResponse") v with
  | some (ir, _) =>
    match Session.stringComponent intermediateComps (str "responseName") ir with
    | .error e => .error e
    | .ok _ => .ok ()
  | none =>
    match Received.unpack (str "extendedResp") v with
    | none => .error .unexpectedResponse
    | some (xr, _) =>
      match Session.stringComponent extendedRespComps (str "responseName") xr with
      | .error e => .error e
      | .ok _ =>
        match Received.intField extendedRespComps (str "resultCode") xr with
        | none => .error .asn1Error
        | some z => if z = 0 then .ok () else .error .ldapError

section
variable {V R M S : Type} (C : Net.Codec UInt8 M) (view : M → Val) (peer : Peer S) (env : Env V R) (secure : S → S × Except Err Unit)

/-- `LDAP.start_tls` base.py:1172-1208, with `send_extended_request` 1128-1157 (no control keywords), `LDAPSocket.start_tls` net.py:165-212 and `refresh_root_dse` base.py:353-358 -/
def startTls (t : Secured M S) : Secured M S × Except Err Unit :=
  if t.started then (t, .error .ldapError)
  else if !t.client.exts.contains startTlsOid then (t, .error .ldapSupport)
  else if t.client.closed then ({ t with client := { t.client with link := ⟨{ t.client.link.st with next := t.client.link.st.next + 1 }, t.client.link.peer⟩ } }, .error .osError)
  else
    match roundTrip C view peer { env with ctrls := .ok none } t.client.link (.extended startTlsOid none) with
    | (l, .error e) => ({ t with client := { t.client with link := l } }, .error e)
    | (l, .ok v) =>
      match responseOk v with
      | .error e => ({ t with client := { t.client with link := l } }, .error e)
      | .ok _ =>
        match secure l.peer with
        | (s, .error e) => ({ t with client := { t.client with link := ⟨l.st, s⟩ } }, .error e)
        | (s, .ok _) =>
          match refreshRootDse C view peer (env.closedIf false) ⟨l.st, s⟩ with
          | (l', .error e) => ({ t with started := true, client := { t.client with link := l' } }, .error e)
          | (l', .ok (root, mechs)) =>
            ({ started := true, root := root, client := { t.client with link := l', exts := texts (AttrsDict.getAttr env.lower root (str "supportedExtension")), mechs := some mechs } }, .ok ())

end
end Api
end Laurelin
