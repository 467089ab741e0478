import Verif.Spec.ApplyLdif
import Verif.Spec.Directory
import Verif.Model.ApiTrans
/-!
Specification: what a modify transaction does on a connection, and to the entry.
-/
namespace Laurelin.Spec.TransWireS
open Laurelin Codec Wire OverWireS OverWire

/-- a request to read the entry with this DN -/
def ReadOf (dn : Str) (bs : Bytes) : Prop := ∃ mid deref time f attrs ctrls, (Message.mk mid (readOp dn deref 2 time f attrs) ctrls).Valid ∧ (Message.mk mid (readOp dn deref 2 time f attrs) ctrls).enc x690 bs

/-- one request to make these changes, in this order -/
def ModifyOf (dn : Str) (cs : List (Change Bytes)) (bs : Bytes) : Prop := ∃ mid ctrls, (Message.mk mid (modifyOp dn cs) ctrls).Valid ∧ (Message.mk mid (modifyOp dn cs) ctrls).enc x690 bs

/-! ## What the calls of a transaction ask for -/

/-- the attributes that a call names -/
def names : Stage → List Str
  | .addAttrs new => new.map Prod.fst
  | .replaceAttrs new => new.map Prod.fst
  | .deleteAttrs del => del.map Prod.fst
  | _ => []

/-- the values of `Vals`: none for DELETE_ALL -/
def given : Vals Rfc4511.AVal → List Bytes
  | .deleteAll => []
  | .list l => l.map (·.bytes)

/-- what a call asks for: values added if not there yet, all values replaced, values (or all values) deleted if there; other attributes keep theirs -/
def Effect (lower : Str → Str) (m : Str → Bytes → Bytes → Bool) (e : Entry Bytes) (c : Stage) (e' : Entry Bytes) : Prop :=
  match c with
  | .addAttrs new => Becomes lower e e' new (fun a vs cur => withAdded (m a) cur (vs.map (·.bytes)))
  | .replaceAttrs new => Becomes lower e e' new (fun _ vs _ => given vs)
  | .deleteAttrs del => Becomes lower e e' del (fun a vs cur => if given vs = [] then [] else without (m a) cur (given vs))
  | _ => False

/-- one call after the other -/
inductive Composed (lower : Str → Str) (m : Str → Bytes → Bytes → Bool) : Entry Bytes → List Stage → Entry Bytes → Prop where
  | nil (e : Entry Bytes) : Composed lower m e [] e
  | snoc {e e1 e2 : Entry Bytes} {cs : List Stage} {c : Stage} : Composed lower m e cs e1 → Effect lower m e1 c e2 → Composed lower m e (cs ++ [c]) e2

end Laurelin.Spec.TransWireS
