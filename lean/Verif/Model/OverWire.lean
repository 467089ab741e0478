import Verif.Model.Session
import Verif.Model.SearchRequest
/-!
# Methods of a connected object, down to the octets (laurelin/ldap/ldapobject.py, base.py, net.py)

`refresh`, `modify`, `add_attrs`, `replace_attrs`, `delete_attrs` of an `LDAPObject` on a connection whose other side is any function from octets written to octets that come back. The parts are those of the
other models: `Model/LdapModify.lean` for the object, `Model/SearchRequest.lean` for the search that `get` makes, `Model/Rfc4511.lean` for the octets, `Model/Net.lean` for receiving, `Model/Received.lean`
and `Model/Search.lean` for reading the answers. Simplifications: a call that would wait for ever is ended by an error of the socket (`OSError`); nothing comes after the final result of a search that is a
referral; no SASL layer.
-/
namespace Laurelin
namespace OverWire
open Codec Asn1 Rfc4511

/-- the other side: what it does with the octets written to it, and what it sends back, in the pieces in which `recv` gives it -/
abbrev Peer (S : Type) := S → Bytes → S × List Bytes

/-- a connection and its other side -/
structure Link (M S : Type) where
  st : Session.St M
  peer : S

/-- What the calls are subject to: the object's environment (`Model/LdapModify.lean`), the controls of the modify request, what `search` uses of the connection, what reading search results uses,
registered controls, attribute names that an object and a search handle have anyway. -/
structure Env (V R : Type) where
  obj : ObjEnv AVal
  ctrls : Option (List Controls.Wire)
  conn : SearchConn V R
  results : Search.Env V R Received.Entry
  own : List Str
  handleOwn : List Str

section
variable {V R M S : Type} (C : Net.Codec UInt8 M) (view : M → Val) (peer : Peer S) (env : Env V R)

/-- one modify request, base.py:1039-1044 -/
def sendModify (l : Link M S) (rq : ModRequest AVal) : Link M S × Except Err Unit :=
  match send l.st.next (Call.modify rq).op env.ctrls with
  | none => (⟨{ l.st with next := l.st.next + 1 }, l.peer⟩, .error .asn1Error)
  | some bs =>
    let p := peer l.peer bs
    let r := Session.request C view env.conn.reg env.own l.st (.modify rq) env.ctrls p.2
    (⟨r.2, p.1⟩, match r.1.2 with
      | .returns _ => .ok ()
      | .raises e => .error e
      | .waits => .error .osError)

/-- The messages that `SearchResultHandle.__iter__` takes from `recv_messages`, base.py:1571-1610, up to the final result or one that is not a search response, and the exception that ends it early;
the fuel is a number of messages. -/
def collect (want : Nat) : Nat → Net.Phase UInt8 → Net.Sock UInt8 M → (List (Search.Msg Received.Entry) × Err) × Net.Sock UInt8 M
  | 0, _, s => (([], .osError), s)
  | n + 1, p, s =>
    match Net.next C want p s with
    | (.yields m, p', s') =>
      match Received.searchMsg (view m) with
      | none => (([], .ldapUnicode), s')
      | some (.done c ws us) => (([.done c ws us], .osError), s')
      | some .other => (([.other], .osError), s')
      | some x =>
        let r := collect want n p' s'
        ((x :: r.1.1, r.1.2), r.2)
    | (.stop, _, s') => (([], .osError), s')
    | (.unsolicited _, _, s') => (([], .unsolicited), s')
    | (.blocked, _, s') => (([], .osError), s')

/-- `LDAP.get`, base.py:600-603, for the DN of the object: the attributes of the `LDAPObject` it returns, before they are put into a dictionary that ignores case. A reference handle has no items
(`TypeError`). -/
def fetch (l : Link M S) (attrs : List Str) : Link M S × Except Err (PDict Str (List AVal)) :=
  match ldapSearch { env.conn with unbound := env.obj.unbound } { base := env.obj.dn, scope := .base, attrs := some attrs, limit := 2 } with
  | .error e => (l, .error e)
  | .ok sent =>
    match send l.st.next (Call.search sent.req).op sent.ctrls with
    | none => (⟨{ l.st with next := l.st.next + 1 }, l.peer⟩, .error .asn1Error)
    | some bs =>
      let p := peer l.peer bs
      let sock := { l.st.sock with chunks := l.st.sock.chunks ++ p.2 }
      let r := collect C view l.st.next (sock.chunks.flatten.length + 1) (.top []) sock
      let o := Search.iterate { env.results with fetchRefs := sent.fetchRefs, follow := sent.follow } none ⟨env.handleOwn, []⟩ r.1.1
      (⟨⟨l.st.next + 1, r.2⟩, p.1⟩, match o.ending with
        | .raised e => .error e
        | .waiting => .error r.1.2
        | .stop =>
          match Search.getOneResult o.yields with
          | .error e => .error e
          | .ok (.entry e _) => .ok e.2
          | .ok (.ref _ _) => .error .typeError)

variable (lower : Str → Str) (typeOf : TypeOf AVal)

/-- ldapobject.py:306-316 `refresh` with a list of names: the object's attributes are updated (utils.py:159-161) from those of the object that `get` made of the entry (utils.py:126-129). An exception on
the way is taken to leave the object as it was. -/
def refresh (l : Link M S) (d : AttrsDict AVal) (attrs : List Str) : Link M S × Except Err (AttrsDict AVal) :=
  match fetch C view peer env l attrs with
  | (l', .error e) => (l', .error e)
  | (l', .ok got) => (l', CIDict.updateCI lower d (CIDict.update lower CIDict.empty got))

/-- ldapobject.py:327-341 -/
def refreshMissing (l : Link M S) (d : AttrsDict AVal) (attrs : List Str) : Link M S × Except Err (AttrsDict AVal) :=
  let missing := attrs.filter (fun a => !AttrsDict.has lower d a)
  if missing.length > 0 then refresh C view peer env lower l d missing else (l, .ok d)

/-- ldapobject.py:366-367, 393-394: unless the connection has `strict_modify`, attributes that the object does not have are fetched first -/
def prepare (l : Link M S) (d : AttrsDict AVal) (attrs : List Str) : Link M S × Except Err (AttrsDict AVal) :=
  if env.obj.strict then (l, .ok d) else refreshMissing C view peer env lower l d attrs

/-- the object and its connection after a call, and how it ended -/
structure After (M S : Type) where
  link : Link M S
  obj : AttrsDict AVal
  result : Except Err Unit

/-- ldapobject.py:343-355 `modify` -/
def modifyObj (l : Link M S) (d : AttrsDict AVal) (mods : List (Mod AVal)) : After M S :=
  let r := env.obj.modify lower typeOf (fun rq => (sendModify C view peer env l rq).2) d mods
  ⟨r.2.sent.foldl (fun l rq => (sendModify C view peer env l rq).1) l, r.1, r.2.result⟩

/-- ldapobject.py:357-369 `add_attrs` -/
def addAttrs (l : Link M S) (d : AttrsDict AVal) (new : List (Str × List AVal)) : After M S :=
  match prepare C view peer env lower l d (new.map Prod.fst) with
  | (l1, .error e) => ⟨l1, d, .error e⟩
  | (l1, .ok d1) =>
    match addModlist lower typeOf d1 (new.map (fun kv => (kv.1, Vals.list kv.2))) with
    | .error e => ⟨l1, d1, .error e⟩
    | .ok mods => modifyObj C view peer env lower typeOf l1 d1 mods

/-- ldapobject.py:371-381 `replace_attrs` -/
def replaceAttrs (l : Link M S) (d : AttrsDict AVal) (new : List (Str × Vals AVal)) : After M S :=
  match modlist .replace (new.map (fun kv => (kv.1, .vals kv.2))) with
  | .error e => ⟨l, d, .error e⟩
  | .ok mods => modifyObj C view peer env lower typeOf l d mods

/-- ldapobject.py:383-396 `delete_attrs` -/
def deleteAttrs (l : Link M S) (d : AttrsDict AVal) (del : List (Str × Vals AVal)) : After M S :=
  match prepare C view peer env lower l d (del.map Prod.fst) with
  | (l1, .error e) => ⟨l1, d, .error e⟩
  | (l1, .ok d1) =>
    match deleteModlist lower typeOf d1 del with
    | .error e => ⟨l1, d1, .error e⟩
    | .ok mods => modifyObj C view peer env lower typeOf l1 d1 mods

/-- ldapobject.py:306-316 `refresh`, as a call -/
def refreshObj (l : Link M S) (d : AttrsDict AVal) (attrs : List Str) : After M S :=
  match refresh C view peer env lower l d attrs with
  | (l', .error e) => ⟨l', d, .error e⟩
  | (l', .ok d') => ⟨l', d', .ok ()⟩

end
end OverWire
end Laurelin
