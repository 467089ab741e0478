import Verif.Model.ApiLdif
import Verif.Spec.Rfc2849
import Verif.Spec.Willing
/-!
Specification: applying the change records of an LDIF file (RFC 2849) to a directory.
-/
namespace Laurelin.Spec.ApplyS
open Laurelin Codec OverWireS DirectoryS WillingS
open Ldif (Record Item Ctl)

/-- The request that a change record describes. The lines of an `add` are grouped by attribute; a `modify` without modifications asks for nothing. -/
def Asked (r : Record) (op : Wire.Op) : Prop :=
  match r.change with
  | .add attrs => ∃ named : List (Str × List Bytes), (named.map Prod.fst).Nodup ∧ (∀ a, a ∈ named.map Prod.fst ↔ a ∈ attrs.map Prod.fst) ∧
      (∀ kv ∈ named, kv.2 = (attrs.filter (fun ai => ai.1 = kv.1)).map (fun ai => Ldif.octets ai.2.value)) ∧ op = PatternsS.addOp r.dn.value named
  | .delete => op = .delRequest (utf8Enc r.dn.value)
  | .modify mods => mods ≠ [] ∧ op = modifyOp r.dn.value (mods.map (fun m => ⟨m.op, m.name, m.vals.map (fun i => utf8Enc i.value)⟩))
  | .rename _ rdn old sup => op = .modDNRequest (utf8Enc r.dn.value) (utf8Enc rdn.value) old (sup.map (fun i => utf8Enc i.value))

/-- the record turns the contents `d` into `d'` -/
def Applied {D : Type} (dir : Directory D) (d : D) (r : Record) (d' : D) : Prop :=
  (∃ op, Asked r op ∧ dir.updated d op d') ∨ ((∀ op, ¬ Asked r op) ∧ d' = d)

/-- all the records, one after the other -/
inductive AppliedAll {D : Type} (dir : Directory D) : D → List Record → D → Prop where
  | nil (d : D) : AppliedAll dir d [] d
  | cons {d d1 d2 : D} {r : Record} {rs : List Record} : Applied dir d r d1 → AppliedAll dir d1 rs d2 → AppliedAll dir d (r :: rs) d2

/-- a value as an object holds it -/
def held : LVal → Rfc4511.AVal
  | .text s => .text s
  | .bin b => .raw b

/-- what is returned for a record: an object with the DN and the attributes of the `add`, provided that no two names differ only in case; otherwise a response -/
def Returned {R : Type} (lower : Str → Str) (r : Record) (ret : Api.Ret R) : Prop :=
  match r.change with
  | .add attrs => ∃ obj, ret = .object r.dn.value obj ∧ ((∀ a ∈ attrs, ∀ b ∈ attrs, lower a.1 = lower b.1 → a.1 = b.1) →
      ∀ a ∈ attrs, AttrsDict.getAttr lower obj a.1 = (attrs.filter (fun ai => ai.1 = a.1)).map (fun ai => held ai.2.value))
  | _ => ret = .done

/-- a connection that ignores empty lists drops modifications without values: `delete: attr` and `replace: attr` -/
def NoneDropped (o : EmptyOpts) (r : Record) : Prop := o.ignore = true → ∀ mods, r.change = .modify mods → ∀ m ∈ mods, m.vals ≠ []

/-- each record, where those before it have led, asks for an update that is possible, in a message that can be written (`next`: its ID) -/
def DoableAll {D : Type} (dir : Directory D) : D → Nat → List Record → Prop
  | _, _, [] => True
  | d, next, r :: rs => (∀ op, Asked r op → Possible dir d next op none) ∧
      ∀ d', Applied dir d r d' → ((∃ op, Asked r op) → DoableAll dir d' (next + 1) rs) ∧ ((∀ op, ¬ Asked r op) → DoableAll dir d' next rs)

/-- the other side of the connection, keeping what it gets -/
def recorded {S : Type} (peer : OverWire.Peer S) : OverWire.Peer (S × List Bytes) := fun s bs => (((peer s.1 bs).1, s.2 ++ [bs]), (peer s.1 bs).2)

/-- The controls that go with a record: one for each OID given in it that the library knows; of several lines with one OID the last counts. The value is made of that of the line (text if it is UTF-8, else octets)
by the registered control; the criticality is that of the line, or the default of the connection, and what is critical the server supports. -/
def ControlsOf {V R : Type} (env : Api.Env V R) (embed : LVal → V) (r : Record) (ws : List Controls.Wire) : Prop :=
  (ws.map (fun w => w.oid)).Nodup ∧ (∀ o, o ∈ ws.map (fun w => w.oid) ↔ o ∈ r.controls.map (fun c => c.oid) ∧ ∃ known, env.conn.reg.getControl o = .ok known) ∧
  ∀ w ∈ ws, ∃ line known value, (r.controls.filter (fun c => c.oid = w.oid)).getLast? = some line ∧ env.conn.reg.getControl w.oid = .ok known ∧ known.prepare (embed (Ldif.valueOf line.value)) = .ok value ∧
    w.value = (if value = [] then none else some value) ∧ w.critical = line.crit.getD env.conn.dfltCritical ∧ (w.critical = true → w.oid ∈ env.conn.supportedCtrls)

/-- the message with this ID that is sent for a record -/
def SentFor {V R : Type} (env : Api.Env V R) (embed : LVal → V) (mid : Nat) (r : Record) (bs : Bytes) : Prop :=
  ∃ op ws, Asked r op ∧ ControlsOf env embed r ws ∧ (Wire.message mid op (if ws = [] then none else some ws)).Valid ∧ (Wire.message mid op (if ws = [] then none else some ws)).enc Wire.x690 bs

/-- what is sent for records, from a message ID on: one message for each that asks for something -/
inductive Sends {V R : Type} (env : Api.Env V R) (embed : LVal → V) : Nat → List Record → List Bytes → Prop where
  | nil (n : Nat) : Sends env embed n [] []
  | sent {n : Nat} {r : Record} {rs : List Record} {bs : Bytes} {log : List Bytes} : SentFor env embed n r bs → Sends env embed (n + 1) rs log → Sends env embed n (r :: rs) (bs :: log)
  | silent {n : Nat} {r : Record} {rs : List Record} {log : List Bytes} : (∀ op, ¬ Asked r op) → Sends env embed n rs log → Sends env embed n (r :: rs) log

end Laurelin.Spec.ApplyS
