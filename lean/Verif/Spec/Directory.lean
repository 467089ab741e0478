import Verif.Spec.OverWire
import Verif.Spec.SearchRequest
import Verif.Model.Api
/-!
Specification: a directory behind a connection (RFC 4511 4.5 - 4.10), and what a call that returned, or did not, means for it.
-/
namespace Laurelin.Spec.DirectoryS
open Laurelin Codec Wire OverWireS

/-- an entry of a search result: its DN and attributes with their values -/
abbrev Found := Str × List (Str × List Bytes)

/-- What the operations mean: which contents an update (add, delete, modify, modify DN) may lead to if it succeeds, which comparisons are true, and what a search finds. Any meaning will do. -/
structure Directory (D : Type) where
  updated : D → Op → D → Prop
  holds : D → (dn attr value : Bytes) → Prop
  finds : D → Op → List Found → Prop

/-- the update operations, and the response RFC 4511 has for each -/
def respond : Op → Option (Result → Op)
  | .addRequest .. => some .addResponse
  | .delRequest .. => some .delResponse
  | .modDNRequest .. => some .modDNResponse
  | .modifyRequest .. => some .modifyResponse
  | _ => none

def IsSearch : Op → Prop
  | .searchRequest .. => True
  | _ => False

def entryOp (e : Found) : Op := .searchResEntry (utf8Enc e.1) (e.2.map (fun a => ⟨utf8Enc a.1, a.2⟩))

/-- A server with these contents. It answers every request in any encoding; it may refuse any request. -/
structure Serves {S D : Type} (dir : Directory D) (contents : S → D) (peer : OverWire.Peer S) : Prop where
  /-- an update is made and announced, or neither -/
  update : ∀ s bs mid op resp ctrls, respond op = some resp → Message.Valid ⟨mid, op, ctrls⟩ → Message.enc x690 ⟨mid, op, ctrls⟩ bs →
    ∃ r : Result, Answered mid [resp r] (peer s bs).2 ∧ ((r.code = 0 ∧ dir.updated (contents s) op (contents (peer s bs).1)) ∨ (r.code ≠ 0 ∧ contents (peer s bs).1 = contents s))
  /-- compareTrue (6) and compareFalse (5) are the truth -/
  compare : ∀ s bs mid dn attr value ctrls, Message.Valid ⟨mid, .compareRequest dn attr value, ctrls⟩ → Message.enc x690 ⟨mid, .compareRequest dn attr value, ctrls⟩ bs →
    contents (peer s bs).1 = contents s ∧
    ∃ r : Result, Answered mid [.compareResponse r] (peer s bs).2 ∧ (r.code = 6 → dir.holds (contents s) dn attr value) ∧ (r.code = 5 → ¬ dir.holds (contents s) dn attr value)
  /-- with success (0) all entries found are sent, no attribute twice in one; with noSuchObject (32) there are none; no references, and no referral (10) -/
  search : ∀ s bs mid op ctrls, IsSearch op → Message.Valid ⟨mid, op, ctrls⟩ → Message.enc x690 ⟨mid, op, ctrls⟩ bs →
    contents (peer s bs).1 = contents s ∧
    ∃ (found : List Found) (r : Result), r.code ≠ 10 ∧ r.referral = none ∧ (∀ e ∈ found, (e.2.map Prod.fst).Nodup) ∧ Answered mid (found.map entryOp ++ [.searchResDone r]) (peer s bs).2 ∧
      (r.code = 0 → dir.finds (contents s) op found) ∧ (r.code = 32 → found = [] ∧ dir.finds (contents s) op [])

/-! ## What the calls ask for -/

/-- how a modification is sent: DELETE_ALL as no values; an empty list for replace or delete is dropped if the connection ignores them -/
def changeOf (o : EmptyOpts) (md : Mod Rfc4511.AVal) : Option (Change Bytes) :=
  match md.op, md.vals with
  | _, .deleteAll => some ⟨md.op, md.attr, []⟩
  | .add, .list [] => some ⟨md.op, md.attr, []⟩
  | _, .list [] => if o.ignore then none else some ⟨md.op, md.attr, []⟩
  | _, .list l => some ⟨md.op, md.attr, l.map (·.bytes)⟩

/-- the search request with these arguments on this connection -/
def SearchFor {V R : Type} (conn : SearchConn V R) (a : SearchArgs V) (op : Op) : Prop :=
  ∃ n f, scopeNumber a.scope = some n ∧ FilterOf conn a f ∧
    op = .searchRequest (utf8Enc a.base) n (orDefault a.deref conn.dfltDeref : Nat) a.limit (orDefault a.timeout conn.dfltTimeout : Nat) a.attrsOnly (ofFilter f) ((attrsOf a).map utf8Enc)

/-- results as the caller has them: the DN, the attributes by name, each value as text if it is UTF-8 and as octets otherwise; no references, no response controls -/
def Shown {R : Type} (found : List Found) (items : List (Search.Item Received.Entry R)) : Prop :=
  Pairwise2 (fun (e : Found) i => ∃ attrs : PDict Str (List Rfc4511.AVal), i = .entry (e.1, attrs) [] ∧
    Pairwise2 (fun (p : Str × List Bytes) q => q.1 = p.1 ∧ Pairwise2 Shows p.2 q.2) e.2 attrs) found items

/-! ## What it means for the directory -/

/-- the contents are `d` before the call and `d'` after it; a call that raises changes nothing -/
def Effect {V R D : Type} (dir : Directory D) (env : Api.Env V R) (d : D) (c : Api.Call V) (res : Except Err (Api.Ret R)) (d' : D) : Prop :=
  match res with
  | .error _ => d' = d
  | .ok ret =>
    match c with
    | .add dn attrs => dir.updated d (.addRequest (utf8Enc dn) (attrs.map ofAttr)) d' ∧
        ∃ obj, ret = .object dn obj ∧ ((attrs.map (fun kv => env.lower kv.1)).Nodup →
          (∀ kv ∈ attrs, AttrsDict.getAttr env.lower obj kv.1 = kv.2) ∧ ∀ a, (∀ kv ∈ attrs, env.lower kv.1 ≠ env.lower a) → AttrsDict.getAttr env.lower obj a = [])
    | .delete dn => dir.updated d (.delRequest (utf8Enc dn)) d' ∧ ret = .done
    | .modDn dn rdn clean parent => dir.updated d (.modDNRequest (utf8Enc dn) (utf8Enc rdn) clean (parent.map utf8Enc)) d' ∧ ret = .done
    | .move dn newDn clean => (∃ rdn parent, newDn = rdn ++ str "," ++ parent ∧ (∀ a b, rdn = a ++ str "," ++ b → a.getLast? = some '\\') ∧ dir.updated d (.modDNRequest (utf8Enc dn) (utf8Enc rdn) clean (some (utf8Enc parent))) d') ∧ ret = .done
    | .modify dn mods _ => ((mods.filterMap (changeOf env.opts) = [] ∧ d' = d) ∨
        (mods.filterMap (changeOf env.opts) ≠ [] ∧ dir.updated d (modifyOp dn (mods.filterMap (changeOf env.opts))) d')) ∧ ret = .done
    | .compare dn attr value => d' = d ∧ ∃ b, ret = .truth b ∧ (b = true ↔ dir.holds d (utf8Enc dn) (utf8Enc attr) (utf8Enc value))
    | .search a => d' = d ∧ ∃ op found items, SearchFor env.conn a op ∧ dir.finds d op found ∧ Shown found items ∧ ret = .found items
    | .get_ dn attrs kwds => d' = d ∧ ∃ op e i, SearchFor env.conn { base := dn, scope := .base, attrs := attrs, limit := 2, kwds := kwds } op ∧ dir.finds d op [e] ∧ Shown [e] [i] ∧ ret = .found [i]
    | .exists_ dn => d' = d ∧ ∃ op found b, SearchFor env.conn { base := dn, scope := .base, attrs := some [str "1.1"], limit := 2 } op ∧ dir.finds d op found ∧ ret = .truth b ∧ (b = true ↔ found ≠ [])

/-- the contents after these calls with these results, one after the other -/
inductive Happens {V R D : Type} (dir : Directory D) : D → List ((Api.Env V R × Api.Call V) × Except Err (Api.Ret R)) → D → Prop where
  | none (d : D) : Happens dir d [] d
  | then {d d1 d2 : D} {x : (Api.Env V R × Api.Call V) × Except Err (Api.Ret R)} {l : List ((Api.Env V R × Api.Call V) × Except Err (Api.Ret R))} :
      Effect dir x.1.1 d x.1.2 x.2 d1 → Happens dir d1 l d2 → Happens dir d (x :: l) d2

end Laurelin.Spec.DirectoryS
