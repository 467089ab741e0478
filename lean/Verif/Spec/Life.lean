import Verif.Spec.Directory
import Verif.Model.ApiLife
/-!
Specification: authentication on a connection (RFC 4511 4.2, 4.3; RFC 4513 5; RFC 4532), and the request that each call on a connection is.
-/
namespace Laurelin.Spec.LifeS
open Laurelin Codec Wire OverWireS DirectoryS

/-- What binds mean for the state of the server's side (the directory and who the client is): the state after the server has accepted a name and password; accepted the last message of a SASL mechanism; answered a
message of a mechanism with a challenge; the state after it has refused; and the identity it tells when asked. Any meaning will do. -/
structure Logins (D : Type) where
  simple : D → (name password : Bytes) → D → Prop
  sasl : D → (mech : Bytes) → (creds : Option Bytes) → D → Prop
  challenge : D → (mech : Bytes) → (creds : Option Bytes) → (challenge : Option Bytes) → D → Prop
  refused : D → D
  identity : D → Bytes

def whoOid : Str := str "1.3.6.1.4.1.4203.1.11.3"

/-- A server that answers binds and "Who am I?", in any encoding. success is 0, saslBindInProgress 14. -/
structure Authenticates {S D : Type} (log : Logins D) (contents : S → D) (peer : OverWire.Peer S) : Prop where
  simple : ∀ s bs mid name password ctrls, Message.Valid ⟨mid, .bindRequest 3 name (.simple password), ctrls⟩ → Message.enc x690 ⟨mid, .bindRequest 3 name (.simple password), ctrls⟩ bs →
    ∃ (r : Result) (creds : Option Bytes), Answered mid [.bindResponse r creds] (peer s bs).2 ∧
      ((r.code = 0 ∧ log.simple (contents s) name password (contents (peer s bs).1)) ∨ (r.code ≠ 0 ∧ contents (peer s bs).1 = log.refused (contents s)))
  sasl : ∀ s bs mid mech sent ctrls, Message.Valid ⟨mid, .bindRequest 3 [] (.sasl mech sent), ctrls⟩ → Message.enc x690 ⟨mid, .bindRequest 3 [] (.sasl mech sent), ctrls⟩ bs →
    ∃ (r : Result) (creds : Option Bytes), Answered mid [.bindResponse r creds] (peer s bs).2 ∧
      ((r.code = 0 ∧ log.sasl (contents s) mech sent (contents (peer s bs).1)) ∨ (r.code = 14 ∧ log.challenge (contents s) mech sent creds (contents (peer s bs).1)) ∨
        (r.code ≠ 0 ∧ r.code ≠ 14 ∧ contents (peer s bs).1 = log.refused (contents s)))
  who : ∀ s bs mid ctrls, Message.Valid ⟨mid, .extendedReq (utf8Enc whoOid) none, ctrls⟩ → Message.enc x690 ⟨mid, .extendedReq (utf8Enc whoOid) none, ctrls⟩ bs →
    contents (peer s bs).1 = contents s ∧
    ∃ (r : Result) (n v : Option Bytes), Answered mid [.extendedResp r n v] (peer s bs).2 ∧ (r.code = 0 → v.getD [] = log.identity (contents s))

/-- A SASL exchange with a mechanism in the state given, whose next message is `sent`: it leads from one state of the server to another; at the end the server has accepted (`true`) or not. Each message but the
first is what the mechanism answers to the challenge just received. It can also end because a message cannot be sent or the mechanism refuses a challenge. -/
inductive Dialogue {D P : Type} (log : Logins D) (process : P → Option Bytes → Except Err (Option Bytes × P)) (mech : Bytes) : P → Option Bytes → D → Bool → D → Prop where
  | accepted {p : P} {sent : Option Bytes} {d d' : D} : log.sasl d mech sent d' → Dialogue log process mech p sent d true d'
  | refused {p : P} {sent : Option Bytes} {d : D} : Dialogue log process mech p sent d false (log.refused d)
  | unsent {p : P} {sent : Option Bytes} {d : D} : Dialogue log process mech p sent d false d
  | stuck {p : P} {sent : Option Bytes} {d : D} {ch : Option Bytes} {d' : D} {e : Err} : log.challenge d mech sent ch d' → process p ch = .error e → Dialogue log process mech p sent d false d'
  | next {p : P} {sent : Option Bytes} {d : D} {ch : Option Bytes} {d1 : D} {sent' : Option Bytes} {p' : P} {ok : Bool} {d' : D} :
      log.challenge d mech sent ch d1 → process p ch = .ok (sent', p') → Dialogue log process mech p' sent' d1 ok d' → Dialogue log process mech p sent d ok d'

/-! ## The request of a call -/

/-- the request that a call of `Model/Api.lean` is -/
def Asks {V R : Type} (env : Api.Env V R) (c : Api.Call V) (op : Op) : Prop :=
  match c with
  | .add dn attrs => op = .addRequest (utf8Enc dn) (attrs.map ofAttr)
  | .delete dn => op = .delRequest (utf8Enc dn)
  | .modDn dn rdn clean parent => op = .modDNRequest (utf8Enc dn) (utf8Enc rdn) clean (parent.map utf8Enc)
  | .move dn newDn clean => ∃ rdn parent, newDn = rdn ++ str "," ++ parent ∧ (∀ a b, rdn = a ++ str "," ++ b → a.getLast? = some '\\') ∧ op = .modDNRequest (utf8Enc dn) (utf8Enc rdn) clean (some (utf8Enc parent))
  | .modify dn mods _ => mods.filterMap (changeOf env.opts) ≠ [] ∧ op = modifyOp dn (mods.filterMap (changeOf env.opts))
  | .compare dn attr value => op = .compareRequest (utf8Enc dn) (utf8Enc attr) (utf8Enc value)
  | .search a => SearchFor env.conn a op
  | .get_ dn attrs kwds => SearchFor env.conn { base := dn, scope := .base, attrs := attrs, limit := 2, kwds := kwds } op
  | .exists_ dn => SearchFor env.conn { base := dn, scope := .base, attrs := some [str "1.1"], limit := 2 } op

/-- A call is one request, except that a SASL bind is any number of bind requests of mechanisms, and requests for the server's mechanisms. -/
def LifeAsks {V R : Type} (env : Api.Env V R) (k : Api.LifeCall V) (op : Op) : Prop :=
  match k with
  | .simpleBind username password => op = .bindRequest 3 (utf8Enc username) (.simple (utf8Enc password))
  | .saslBind _ => (∃ mech creds, op = .bindRequest 3 [] (.sasl mech creds)) ∨ SearchFor env.conn { base := [], scope := .base, attrs := some [str "supportedSASLMechanisms"], limit := 2 } op
  | .whoAmI => op = .extendedReq (utf8Enc whoOid) none
  | .unbind => op = .unbindRequest
  | .call c => Asks env c op

def IsBind {V : Type} : Api.LifeCall V → Prop
  | .simpleBind .. => True
  | .saslBind .. => True
  | _ => False

end Laurelin.Spec.LifeS
