import Verif.Spec.Patterns
/-!
Specification: a server that refuses only what cannot be done, and what can be done.
-/
namespace Laurelin.Spec.WillingS
open Laurelin Codec Wire OverWireS DirectoryS

/-- a possible answer to a search: what is found, no attribute twice in one entry, each entry small enough for a message -/
def Sendable {D : Type} (dir : Directory D) (d : D) (mid : Int) (op : Op) (found : List Found) : Prop :=
  dir.finds d op found ∧ (∀ e ∈ found, (e.2.map Prod.fst).Nodup) ∧ ∀ e ∈ found, ∃ b, Message.enc x690 ⟨mid, entryOp e, none⟩ b

/-- A server with these contents (`DirectoryS.Serves`) that refuses an update only if it is not possible, and a search only if there is no answer that can be sent; a comparison has one of the two results. -/
structure Willing {S D : Type} (dir : Directory D) (contents : S → D) (peer : OverWire.Peer S) : Prop where
  update : ∀ s bs mid op resp ctrls, respond op = some resp → Message.Valid ⟨mid, op, ctrls⟩ → Message.enc x690 ⟨mid, op, ctrls⟩ bs →
    ∃ r : Result, Answered mid [resp r] (peer s bs).2 ∧
      ((r.code = 0 ∧ dir.updated (contents s) op (contents (peer s bs).1)) ∨ (r.code ≠ 0 ∧ contents (peer s bs).1 = contents s ∧ ∀ d', ¬ dir.updated (contents s) op d'))
  compare : ∀ s bs mid dn attr value ctrls, Message.Valid ⟨mid, .compareRequest dn attr value, ctrls⟩ → Message.enc x690 ⟨mid, .compareRequest dn attr value, ctrls⟩ bs →
    contents (peer s bs).1 = contents s ∧
    ∃ r : Result, Answered mid [.compareResponse r] (peer s bs).2 ∧ ((r.code = 6 ∧ dir.holds (contents s) dn attr value) ∨ (r.code = 5 ∧ ¬ dir.holds (contents s) dn attr value))
  search : ∀ s bs mid op ctrls, IsSearch op → Message.Valid ⟨mid, op, ctrls⟩ → Message.enc x690 ⟨mid, op, ctrls⟩ bs →
    contents (peer s bs).1 = contents s ∧
    ∃ (found : List Found) (r : Result), r.code ≠ 10 ∧ r.referral = none ∧ (∀ e ∈ found, (e.2.map Prod.fst).Nodup) ∧ Answered mid (found.map entryOp ++ [.searchResDone r]) (peer s bs).2 ∧
      (r.code = 0 → dir.finds (contents s) op found) ∧ (r.code = 32 → found = [] ∧ dir.finds (contents s) op []) ∧
      ((∃ found, Sendable dir (contents s) mid op found) → r.code = 0 ∨ r.code = 32)

/-- the message can be written: its numbers are in range, and it has an encoding -/
def Fits (mid : Int) (op : Op) (ctrls : Option (List Controls.Wire)) : Prop := (message mid op ctrls).Valid ∧ ∃ bs, (message mid op ctrls).enc x690 bs

/-- a connection in use: bound, no validator objects, the control keywords were fine and OIDs of controls are ASCII -/
structure Usable {V R : Type} (env : Api.Env V R) : Prop where
  bound : env.conn.unbound = false
  adding : ∀ v ∈ env.addValidators, ∀ a, v a = .ok ()
  modifying : ∀ v ∈ env.modValidators, ∀ a, v a = .ok ()
  ctrls : ∃ c, env.ctrls = .ok c ∧ ∀ l, c = some l → ∀ w ∈ l, ∀ x ∈ w.oid, x.toNat < 128

/-- the update can be asked for and is possible -/
def Possible {D : Type} (dir : Directory D) (d : D) (next : Nat) (op : Op) (ctrls : Option (List Controls.Wire)) : Prop := Fits next op ctrls ∧ ∃ d', dir.updated d op d'

/-- the search, without keywords, can be asked for and answered -/
def Answerable {V R D : Type} (dir : Directory D) (env : Api.Env V R) (d : D) (next : Nat) (a : SearchArgs V) : Prop :=
  a.kwds = [] ∧ MaySend env.conn a ∧ ∃ op, SearchFor env.conn a op ∧ Fits next op none ∧ ∃ found, Sendable dir d next op found

/-- the calls that a willing server leaves no reason to fail -/
def Doable {V R D : Type} (dir : Directory D) (env : Api.Env V R) (d : D) (next : Nat) : Api.Call V → Prop
  | .add dn attrs => Possible dir d next (.addRequest (utf8Enc dn) (attrs.map ofAttr)) env.wire
  | .delete dn => Possible dir d next (.delRequest (utf8Enc dn)) env.wire
  | .modDn dn rdn clean parent => Possible dir d next (.modDNRequest (utf8Enc dn) (utf8Enc rdn) clean (parent.map utf8Enc)) env.wire
  | .move dn newDn clean => ∃ rdn parent, newDn = rdn ++ str "," ++ parent ∧ (∀ a b, rdn = a ++ str "," ++ b → a.getLast? = some '\\') ∧ rdn.getLast? ≠ some '\\' ∧
      Possible dir d next (.modDNRequest (utf8Enc dn) (utf8Enc rdn) clean (some (utf8Enc parent))) env.wire
  | .modify dn mods _ => (∀ md ∈ mods, md.op = .add → md.vals ≠ .deleteAll) ∧ (env.opts.error = true → ∀ md ∈ mods, md.op ≠ .add → md.vals ≠ .list []) ∧
      (mods.filterMap (changeOf env.opts) ≠ [] → Possible dir d next (modifyOp dn (mods.filterMap (changeOf env.opts))) env.wire)
  | .compare dn attr value => Fits next (.compareRequest (utf8Enc dn) (utf8Enc attr) (utf8Enc value)) env.wire
  | .search a => Answerable dir env d next a
  | .get_ dn attrs kwds => Answerable dir env d next { base := dn, scope := .base, attrs := attrs, limit := 2, kwds := kwds } ∧
      ∀ op found, SearchFor env.conn { base := dn, scope := .base, attrs := attrs, limit := 2, kwds := kwds } op → dir.finds d op found → ∃ e, found = [e]
  | .exists_ dn => Answerable dir env d next { base := dn, scope := .base, attrs := some [str "1.1"], limit := 2 }

/-- changes of this kind, each for another of the attributes named (in their order), with some of the values given for it -/
def Part (op : ModOp) (named : List (Str × List Bytes)) (cs : List (Change Bytes)) : Prop :=
  (cs.map (·.attr)).Sublist (named.map Prod.fst) ∧ ∀ c ∈ cs, c.op = op ∧ ∃ kv ∈ named, c.attr = kv.1 ∧ c.vals.Sublist kv.2

/-- The entry `e` is at this DN; it can be read, it is what reading finds, and changes that are possible for it are accepted; requests with such changes, as this one or the next, fit. -/
structure Open_ {V R D : Type} (m : Str → Bytes → Bytes → Bool) (norm : Str → Str) (dir : Directory D) (at_ : D → Str → Option (Entry Bytes)) (env : Api.Env V R) (d : D) (next : Nat) (dn : Str)
    (names : List Str) (part : List (Change Bytes) → Prop) (e : Entry Bytes) : Prop where
  there : at_ d (norm dn) = some e
  read : Answerable dir env d next { base := dn, scope := .base, attrs := some names, limit := 2 }
  one : ∀ op found, SearchFor env.conn { base := dn, scope := .base, attrs := some names, limit := 2 } op → dir.finds d op found → ∃ p, found = [p]
  accepted : ∀ cs e', part cs → srvModify env.lower m e cs = .ok e' → ∃ d', dir.updated d (modifyOp dn cs) d'
  fits : ∀ mid cs, mid = next ∨ mid = next + 1 → part cs → Fits (mid : Nat) (modifyOp dn cs) env.wire

end Laurelin.Spec.WillingS
