import Verif.Spec.Requests
import Verif.Spec.Controls
/-!
Specification: the exchange of a SASL bind (RFC 4513 5.2, RFC 4422 section 3) and a security layer (RFC 4422 3.7).
-/
namespace Laurelin.Spec.SaslS
open Laurelin Codec

/-- the server's challenges, one after the other, lead a mechanism from a state to these answers and a state -/
inductive Answers {S : Type} (process : S → Option Bytes → Except Err (Option Bytes × S)) : S → List (Option Bytes) → List (Option Bytes) → S → Prop where
  | nil (s : S) : Answers process s [] [] s
  | cons (s s' t : S) (c r : Option Bytes) (cs rs : List (Option Bytes)) : process s c = .ok (r, s') → Answers process s' cs rs t → Answers process s (c :: cs) (r :: rs) t

/-- a bind request of the exchange -/
def request (mech : Str) (ctrls : Option (List Controls.Wire)) (mid : Int) (credentials : Option Bytes) : Wire.Message :=
  Wire.message mid (.bindRequest 3 [] (.sasl (utf8Enc mech) credentials)) ctrls

/-- the bind requests of an exchange: consecutive IDs, these credentials -/
def requests (mech : Str) (ctrls : Option (List Controls.Wire)) : Int → List (Option Bytes) → List Wire.Message
  | _, [] => []
  | mid, r :: rs => request mech ctrls mid r :: requests mech ctrls (mid + 1) rs

/-- a bind response -/
def IsAnswer (code : Int) (creds : Option Bytes) (ctrls : Option (List Controls.Wire)) (m : Wire.Message) : Prop :=
  ∃ id matched diag refs, m = Wire.message id (.bindResponse ⟨code, matched, diag, refs⟩ creds) ctrls

/-- pieces protected by the other side, in order: each one can be unwrapped in the state that the ones before lead to -/
inductive Buffers {S : Type} (unwrap : S → Bytes → Except Err (Bytes × S)) : S → List Bytes → List Bytes → Prop where
  | nil (s : S) : Buffers unwrap s [] []
  | cons (s t : S) (plain buffer : Bytes) (ps bs : List Bytes) : unwrap s buffer = .ok (plain, t) → Buffers unwrap t ps bs → Buffers unwrap s (plain :: ps) (buffer :: bs)

end Laurelin.Spec.SaslS
