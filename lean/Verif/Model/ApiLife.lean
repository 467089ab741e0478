import Verif.Model.ApiOpen
import Verif.Model.Sasl
/-!
# The life of a connection, down to the octets (laurelin/ldap/base.py:385-545, 1128-1170)

`simple_bind`, `sasl_bind`, `who_am_i`, `unbind` and the calls of `Model/Api.lean` on one `LDAP` object that has its socket for itself (shared sockets: `Model/Conn.lean`). Simplifications: those of
`Model/Api.lean`; SASL mechanisms have no security layer (with one: `Model/Sasl.lean`, C82 and C83), and response controls of the last bind response of a SASL bind are left out; a mechanism is compared with the
server's values for equality (base.py:477 uses the schema of `supportedSASLMechanisms`); keywords of `sasl_bind` for the mechanism are in `SaslLib`.
-/
namespace Laurelin
namespace Api
open Codec Asn1 Rfc4511 OverWire

/-- `puresasl.client.SASLClient`: the constructor and `choose_mechanism` (net.py:243-247), with the name of the mechanism; `process` (net.py:271-274) -/
structure SaslLib (P : Type) where
  choose : List AVal → Except Err (Str × P)
  process : P → Option Bytes → Except Err (Option Bytes × P)

/-- the socket with the other side; `bound` and `unbound` of the socket (net.py:74-75); what the `LDAP` object has of its root DSE (base.py:356-358), and `default_sasl_mech`, `sasl_fatal_downgrade_check` -/
structure Client (M S : Type) where
  link : Link M S
  bound : Bool
  closed : Bool
  exts : List Str
  mechs : Option (List AVal)
  mech : Option Str
  fatal : Bool

inductive LifeCall (V : Type) where
  | simpleBind (username password : Str)
  | saslBind (mech : Option Str)
  | whoAmI
  | unbind
  | call (c : Call V)

inductive LifeRet (R : Type) where
  | done
  | text (s : Str)
  | ret (r : Ret R)

section
variable {V R M S P : Type} (C : Net.Codec UInt8 M) (view : M → Val) (peer : Peer S) (env : Env V R) (lib : SaslLib P)

/-- the connection as the checks of the calls see it -/
def Env.closedIf (closed : Bool) : Env V R := { env with conn := { env.conn with unbound := closed } }

/-- `send_message` and `recv_one`, net.py:276-310: the message itself -/
def roundTrip (l : Link M S) (c : Rfc4511.Call) : Link M S × Except Err Val :=
  match send l.st.next c.op env.wire with
  | none => (⟨{ l.st with next := l.st.next + 1 }, l.peer⟩, .error .asn1Error)
  | some bs =>
    let p := peer l.peer bs
    match Net.recvOne C l.st.next { l.st.sock with chunks := l.st.sock.chunks ++ p.2 } with
    | (.yields m, s) => (⟨⟨l.st.next + 1, s⟩, p.1⟩, .ok (view m))
    | (.unsolicited _, s) => (⟨⟨l.st.next + 1, s⟩, p.1⟩, .error .unsolicited)
    | (.stop, s) => (⟨⟨l.st.next + 1, s⟩, p.1⟩, .error .runtimeError)
    | (.blocked, s) => (⟨⟨l.st.next + 1, s⟩, p.1⟩, .error .osError)

/-- the loop of `sasl_bind`, base.py:487-520, up to the successful response. The fuel is a number of exchanges. -/
def saslLoop (mech : Str) : Nat → Link M S → P → Option Bytes → Link M S × Except Err Unit
  | 0, l, _, _ => (l, .error .osError)
  | n + 1, l, p, response =>
    match roundTrip C view peer env l (.saslBind mech (response.map .raw)) with
    | (l', .error e) => (l', .error e)
    | (l', .ok v) =>
      match Sasl.bindAnswer v with
      | none => (l', .error .unexpectedResponse)
      | some (code, creds, _) =>
        if code = 14 then
          match lib.process p creds with
          | .error e => (l', .error e)
          | .ok (response', p') => saslLoop mech n l' p' response'
        else if code = 0 then (l', .ok ())
        else (l', .error .ldapError)

/-- base.py:473-481: the mechanism asked for, or the default one, has to be among the server's; if there is none all of them are candidates -/
def saslCandidates (mechs : List AVal) (mech : Option Str) : Except Err (List AVal) :=
  match mech with
  | none => .ok mechs
  | some m => if mechs.contains (.text m) then .ok [.text m] else .error .ldapSupport

/-- `get_sasl_mechs`, base.py:420-432 -/
def saslMechs (c : Client M S) : Link M S × Except Err (List AVal) :=
  match c.mechs with
  | some l => (c.link, .ok l)
  | none => queryMechs C view peer (env.closedIf c.closed) c.link

/-- base.py:482-517: mechanism chosen, exchange, check. After the exchange the connection is bound, whatever the check says. (`_sasl_mechs` is not used any more then.) -/
def saslAuth (fuel : Nat) (c : Client M S) (l : Link M S) (mechs : List AVal) (mech : Option Str) : Client M S × Except Err (LifeRet R) :=
  match saslCandidates mechs mech with
  | .error e => ({ c with link := l, mechs := some mechs }, .error e)
  | .ok cands =>
    match lib.choose cands with
    | .error e => ({ c with link := l, mechs := some mechs }, .error e)
    | .ok (name, p) =>
      match saslLoop C view peer env lib name fuel l p none with
      | (l', .error e) => ({ c with link := l', mechs := some mechs }, .error e)
      | (l', .ok _) =>
        match recheckMechs C view peer (env.closedIf c.closed) l' c.fatal mechs with
        | (l'', .error e) => ({ c with link := l'', bound := true, mechs := none }, .error e)
        | (l'', .ok now) => ({ c with link := l'', bound := true, mechs := some now }, .ok .done)

/-- `simple_bind` base.py:385-418, `sasl_bind` 455-521, `who_am_i` 1159-1170 with `send_extended_request` 1128-1157 (on a closed socket `sendall` is an `OSError`, an ID is used up), `unbind` 523-545 -/
def lifeCall (fuel : Nat) (c : Client M S) : LifeCall V → Client M S × Except Err (LifeRet R)
  | .simpleBind username password =>
    if c.closed then (c, .error .unbound)
    else if c.bound then (c, .error .alreadyBound)
    else match env.ctrlsOk with
      | .error e => (c, .error e)
      | .ok _ =>
        match exchange C view peer env c.link (.simpleBind username password) with
        | (l, .returns _) => ({ c with link := l, bound := true }, .ok .done)
        | (l, .raises e) => ({ c with link := l }, .error e)
        | (l, .waits) => ({ c with link := l }, .error .osError)
  | .saslBind mech =>
    if c.closed then (c, .error .unbound)
    else if c.bound then (c, .error .alreadyBound)
    else match env.ctrlsOk with
      | .error e => (c, .error e)
      | .ok _ =>
        match saslMechs C view peer env c with
        | (l, .error e) => ({ c with link := l }, .error e)
        | (l, .ok mechs) => saslAuth C view peer env lib fuel c l mechs (mech.or c.mech)
  | .whoAmI =>
    if !c.exts.contains (str "1.3.6.1.4.1.4203.1.11.3") then (c, .error .ldapSupport)
    else match env.ctrlsOk with
      | .error e => (c, .error e)
      | .ok _ =>
        if c.closed then ({ c with link := ⟨{ c.link.st with next := c.link.st.next + 1 }, c.link.peer⟩ }, .error .osError)
        else match exchange C view peer env c.link (.extended (str "1.3.6.1.4.1.4203.1.11.3") none) with
          | (l, .returns (.text s)) => ({ c with link := l }, .ok (.text s))
          | (l, .returns _) => ({ c with link := l }, .error .typeError)
          | (l, .raises e) => ({ c with link := l }, .error e)
          | (l, .waits) => ({ c with link := l }, .error .osError)
  | .unbind =>
    if c.closed then (c, .error .unbound)
    else match send c.link.st.next (Rfc4511.Call.unbind).op none with
      | none => ({ c with link := ⟨{ c.link.st with next := c.link.st.next + 1 }, c.link.peer⟩ }, .error .asn1Error)
      | some bs => ({ c with link := ⟨{ c.link.st with next := c.link.st.next + 1 }, (peer c.link.peer bs).1⟩, closed := true }, .ok .done)
  | .call k =>
    match call C view peer (env.closedIf c.closed) c.link k with
    | (l, .error e) => ({ c with link := l }, .error e)
    | (l, .ok r) => ({ c with link := l }, .ok (.ret r))

/-- calls one after the other -/
def lifeRun (fuel : Nat) (c : Client M S) : List (Env V R × LifeCall V) → Client M S × List (Except Err (LifeRet R))
  | [] => (c, [])
  | (env, k) :: ks =>
    let r := lifeCall C view peer env lib fuel c k
    let q := lifeRun fuel r.1 ks
    (q.1, r.2 :: q.2)

end
end Api
end Laurelin
