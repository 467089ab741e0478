import Verif.Spec.Life
import Verif.Spec.OpenWire
import Verif.Model.ApiTls
/-!
Specification: StartTLS on a connection (RFC 4511 4.14).
-/
namespace Laurelin.Spec.StartTlsS
open Laurelin Codec Wire OverWireS DirectoryS OpenS

def tlsOid : Str := str "1.3.6.1.4.1.1466.20037"

/-- What StartTLS means for the state of the server's side: the state in which it waits for the handshake; after it has refused; after a handshake; after a handshake that failed. Any meaning will do. -/
structure Layers (D : Type) where
  accepted : D → D → Prop
  refused : D → D
  secured : D → D → Prop
  failed : D → D → Prop

/-- a server that answers the StartTLS request, in any encoding -/
def AnswersStartTls {S D : Type} (lay : Layers D) (contents : S → D) (peer : OverWire.Peer S) : Prop :=
  ∀ s bs mid ctrls, Message.Valid ⟨mid, .extendedReq (utf8Enc tlsOid) none, ctrls⟩ → Message.enc x690 ⟨mid, .extendedReq (utf8Enc tlsOid) none, ctrls⟩ bs →
    ∃ (r : Result) (n v : Option Bytes), Answered mid [.extendedResp r n v] (peer s bs).2 ∧
      ((r.code = 0 ∧ lay.accepted (contents s) (contents (peer s bs).1)) ∨ (r.code ≠ 0 ∧ contents (peer s bs).1 = lay.refused (contents s)))

/-- what the handshake does -/
def Handshakes {S D : Type} (lay : Layers D) (contents : S → D) (secure : S → S × Except Err Unit) : Prop :=
  ∀ s, match (secure s).2 with
    | .ok _ => lay.secured (contents s) (contents (secure s).1)
    | .error _ => lay.failed (contents s) (contents (secure s).1)

/-- How a call of `start_tls` can end: whether TLS was started before, the state before it, what it does, whether TLS is started after it, and the state then. In order: not asked for at all, or not readably; refused;
accepted, but the answer cannot be read; the handshake failed; the new root DSE could not be read; all is done. -/
inductive Ends {D : Type} (lay : Layers D) : Bool → D → Except Err Unit → Bool → D → Prop where
  | kept {b : Bool} {d : D} (e : Err) : Ends lay b d (.error e) b d
  | refused {d : D} (e : Err) : Ends lay false d (.error e) false (lay.refused d)
  | unread {d d1 : D} (e : Err) : lay.accepted d d1 → Ends lay false d (.error e) false d1
  | failed {d d1 d2 : D} (e : Err) : lay.accepted d d1 → lay.failed d1 d2 → Ends lay false d (.error e) false d2
  | bare {d d1 d2 : D} (e : Err) : lay.accepted d d1 → lay.secured d1 d2 → Ends lay false d (.error e) true d2
  | done {d d1 d2 : D} : lay.accepted d d1 → lay.secured d1 d2 → Ends lay false d (.ok ()) true d2

/-- How each answer to the request is taken: an acceptance, or an error. A name that the answer does not have is readable. -/
inductive Taken : Op → Except Err Unit → Prop where
  | success {r : Result} {n v : Option Bytes} {s : Str} : n.getD [] = utf8Enc s → r.code = 0 → Taken (.extendedResp r n v) (.ok ())
  | refusal {r : Result} {n v : Option Bytes} {s : Str} : n.getD [] = utf8Enc s → r.code ≠ 0 → Taken (.extendedResp r n v) (.error .ldapError)
  | name {r : Result} {n v : Option Bytes} : (∀ s, n.getD [] ≠ utf8Enc s) → Taken (.extendedResp r n v) (.error .ldapUnicode)
  | intermediate {n v : Option Bytes} {s : Str} : n.getD [] = utf8Enc s → Taken (.intermediateResponse n v) (.ok ())
  | intermediateName {n v : Option Bytes} : (∀ s, n.getD [] ≠ utf8Enc s) → Taken (.intermediateResponse n v) (.error .ldapUnicode)
  | other {o : Op} : (∀ r n v, o ≠ .extendedResp r n v) → (∀ n v, o ≠ .intermediateResponse n v) → Taken o (.error .unexpectedResponse)

/-- What the connection knows is from this root DSE: `root_dse` shows the values sent; the extensions are those that are text; the SASL mechanisms are those sent. -/
structure Knows {M S : Type} (lower : Str → Str) (e : Found) (t : Api.Secured M S) : Prop where
  root : ∀ name, Pairwise2 Shows (sent lower e name) (AttrsDict.getAttr lower t.root name)
  exts : ∀ oid, oid ∈ t.client.exts ↔ utf8Enc oid ∈ sent lower e (str "supportedExtension")
  mechs : ∃ l, t.client.mechs = some l ∧ Pairwise2 Shows (sent lower e (str "supportedSASLMechanisms")) l

end Laurelin.Spec.StartTlsS
