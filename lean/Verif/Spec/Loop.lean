import Verif.Spec.Directory
import Verif.Model.ApiLoop
/-!
Specification: a server that does not cut messages, and what the body of a loop over search results has done.
-/
namespace Laurelin.Spec.LoopS
open Laurelin Codec Wire OverWireS DirectoryS

/-- each piece in which the answers to searches arrive is made of whole messages -/
def Whole {S : Type} (peer : OverWire.Peer S) : Prop :=
  ∀ s bs mid op ctrls, IsSearch op → Message.Valid ⟨mid, op, ctrls⟩ → Message.enc x690 ⟨mid, op, ctrls⟩ bs →
    ∀ c ∈ (peer s bs).2, ∃ bss : List Bytes, c = bss.flatten ∧ ∀ b ∈ bss, ∃ m : Message, m.Valid ∧ m.enc x690 b

/-- After some calls, more calls have been made as these steps of the body say: each step sees what the calls before it have returned, and makes the call it decides on. -/
inductive Calls {V R : Type} : List (Api.Made V R) → List (List (Api.Made V R) → Option (Api.Env V R × Api.Call V)) → List (Api.Made V R) → Prop where
  | none (made : List (Api.Made V R)) : Calls made [] made
  | skips {made after f fs} : f made = none → Calls made fs after → Calls made (f :: fs) after
  | makes {made after f fs ec} (res : Except Err (Api.Ret R)) : f made = some ec → Calls (made ++ [(ec, res)]) fs after → Calls made (f :: fs) after

/-- The body has been run with these items, one after the other; it has left the loop with the last of them if the flag says so, and with no other. -/
inductive Ran {V R : Type} (body : Api.Body V R) : List (Api.Made V R) → List (Search.Item Received.Entry R) → List (Api.Made V R) → Bool → Prop where
  | none (made : List (Api.Made V R)) : Ran body made [] made false
  | left {made after i} : Calls made (body.calls i) after → body.leave after i = true → Ran body made [i] after true
  | goes {made mid after i is b} : Calls made (body.calls i) mid → body.leave mid i = false → Ran body mid is after b → Ran body made (i :: is) after b

end Laurelin.Spec.LoopS
