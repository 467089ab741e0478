import Verif.Model.OverWire
import Verif.Model.AddOrMod
import Verif.Model.Dn
/-!
# Calls on a connection, down to the octets (laurelin/ldap/base.py, net.py)

`add`, `delete`, `mod_dn`, `rename`, `move`, `modify`, `compare`, `search`, `get` and `exists` of an `LDAP` object on a connection whose other side is any function from octets written to octets that come
back. The parts are those of the other models: `Model/AddOrMod.lean`, `Model/LdapModify.lean`, `Model/Dn.lean`, `Model/SearchRequest.lean` for what is checked and sent, `Model/Rfc4511.lean` for the octets,
`Model/Net.lean`, `Model/Received.lean`, `Model/Session.lean` and `Model/Search.lean` for reading the answers. A search is iterated at once. Simplifications: those of `Model/OverWire.lean`; the
checks of argument types (base.py:797-800) are the types; response controls set on a returned object or response are left out.
-/
namespace Laurelin
namespace Api
open Codec Asn1 Rfc4511 OverWire

/-- the calls, with the defaults of their arguments filled in; for `rename` (base.py:955-966) the parent is `none` -/
inductive Call (V : Type) where
  | add (dn : Str) (attrs : List (Str × List AVal))
  | delete (dn : Str)
  | modDn (dn newRdn : Str) (clean : Bool) (parent : Option Str)
  | move (dn newDn : Str) (clean : Bool)
  | modify (dn : Str) (mods : List (Mod AVal)) (current : Option (AttrsDict AVal))
  | compare (dn attr value : Str)
  | search (a : SearchArgs V)
  | get_ (dn : Str) (attrs : Option (List Str)) (kwds : PDict Str (Controls.Kwd V))
  | exists_ (dn : Str)

/-- what a call returns: a response without further contents, the truth of a comparison, the results of a search, a new object -/
inductive Ret (R : Type) where
  | done
  | truth (b : Bool)
  | found (l : List (Search.Item Received.Entry R))
  | object (dn : Str) (attrs : AttrsDict AVal)

/-- What a call is subject to: folding of names, validators, options of the connection, the controls made of the keywords or the exception of making them (base.py:360-363; `search` makes its own from its
arguments), what `search` and reading its results use, whether a tag is in use, attribute names that response objects and search handles have anyway. -/
structure Env (V R : Type) where
  lower : Str → Str
  addValidators : List ((Str × AttrsDict AVal) → Except Err Unit)
  modValidators : List ((Str × List (Mod AVal) × Option (AttrsDict AVal)) → Except Err Unit)
  opts : EmptyOpts
  ctrls : Except Err (Option (List Controls.Wire))
  conn : SearchConn V R
  results : Search.Env V R Received.Entry
  tagUsed : Bool
  own : List Str
  handleOwn : List Str

/-- the outcome of `_process_ctrl_kwds` without its value -/
def Env.ctrlsOk {V R : Type} (env : Env V R) : Except Err Unit :=
  match env.ctrls with
  | .error e => .error e
  | .ok _ => .ok ()

/-- the controls sent -/
def Env.wire {V R : Type} (env : Env V R) : Option (List Controls.Wire) :=
  match env.ctrls with
  | .error _ => none
  | .ok c => c

section
variable {V R M S : Type} (C : Net.Codec UInt8 M) (view : M → Val) (peer : Peer S) (env : Env V R)

/-- `send_message` and `recv_one` (net.py:286-310) with the other side in between, then what the call makes of the message -/
def exchange (l : Link M S) (c : Rfc4511.Call) : Link M S × Session.Outcome :=
  match send l.st.next c.op env.wire with
  | none => (⟨{ l.st with next := l.st.next + 1 }, l.peer⟩, .raises .asn1Error)
  | some bs =>
    let p := peer l.peer bs
    let r := Session.request C view env.conn.reg env.own l.st c env.wire p.2
    (⟨r.2, p.1⟩, r.1.2)

/-- the outcome of a request that is answered by a result -/
def unitOf : Session.Outcome → Except Err Unit
  | .returns _ => .ok ()
  | .raises e => .error e
  | .waits => .error .osError

/-- the keywords that are parameters of `LDAPObject` and of `LDAP.obj` themselves (ldapobject.py:50, base.py:560): giving them again is a `TypeError` when the first object is made (base.py:1583) -/
def reservedKwd (kwds : PDict Str (Controls.Kwd V)) : Bool :=
  kwds.any (fun kv => [str "dn", str "attrs_dict", str "ldap_conn", str "self"].contains kv.1)

def isEntry {E : Type} : Search.Msg E → Bool
  | .entry _ _ => true
  | _ => false

/-- whether the iteration of a search result has ended, by itself or by an exception, after these messages; `reserved` as above -/
def ended (reserved : Bool) (iter : List (Search.Msg Received.Entry) → Search.Out Received.Entry R) (ms : List (Search.Msg Received.Entry)) : Bool :=
  (reserved && ms.any isEntry) || match (iter ms).ending with
    | .waiting => false
    | _ => true

/-- how many of the messages the iteration takes, if it ends -/
def takes (ends : List (Search.Msg Received.Entry) → Bool) (ms : List (Search.Msg Received.Entry)) : Option Nat := ((List.range ms.length).find? (fun k => ends (ms.take (k + 1)))).map (· + 1)

/-- `list(self.search(...))`, base.py:622-736 and 1567-1621. The generator of the socket is advanced only as far as the iteration goes; what it holds then is lost with it (net.py:319). -/
def searchAll (l : Link M S) (a : SearchArgs V) : Link M S × Except Err (List (Search.Item Received.Entry R)) :=
  match ldapSearch env.conn a with
  | .error e => (l, .error e)
  | .ok sent =>
    match send l.st.next (Rfc4511.Call.search sent.req).op sent.ctrls with
    | none => (⟨{ l.st with next := l.st.next + 1 }, l.peer⟩, .error .asn1Error)
    | some bs =>
      let p := peer l.peer bs
      let sock := { l.st.sock with chunks := l.st.sock.chunks ++ p.2 }
      let r := collect C view l.st.next (sock.chunks.flatten.length + 1) (.top []) sock
      let tag := if sent.objKwds.any (fun kv => decide (kv.1 = str "tag")) then some env.tagUsed else none
      let iter := Search.iterate { env.results with fetchRefs := sent.fetchRefs, follow := sent.follow } tag ⟨env.handleOwn, []⟩
      let fails := reservedKwd sent.objKwds && r.1.1.any isEntry
      let msgs := if fails then r.1.1.takeWhile (fun m => !isEntry m) else r.1.1
      let sock' := match takes (ended (reservedKwd sent.objKwds) iter) r.1.1 with
        | some n => (collect C view l.st.next n (.top []) sock).2
        | none => r.2
      (⟨⟨l.st.next + 1, sock'⟩, p.1⟩, match (iter msgs).ending with
        | .raised e => .error e
        | .waiting => .error (if fails then .typeError else r.1.2)
        | .stop => .ok (iter msgs).yields)

/-- base.py:600-603 `get` -/
def getArgs (dn : Str) (attrs : Option (List Str)) (kwds : PDict Str (Controls.Kwd V)) : SearchArgs V := { base := dn, scope := .base, attrs := attrs, limit := 2, kwds := kwds }

def getOne (l : Link M S) (dn : Str) (attrs : Option (List Str)) (kwds : PDict Str (Controls.Kwd V)) : Link M S × Except Err (Search.Item Received.Entry R) :=
  if env.conn.unbound then (l, .error .unbound)
  else match searchAll C view peer env l (getArgs dn attrs kwds) with
    | (l', .error e) => (l', .error e)
    | (l', .ok items) => (l', Search.getOneResult items)

/-- a `mod_dn` request, base.py:941-953 -/
def sendModDn (l : Link M S) (o : ModDnOut) : Link M S × Except Err (Ret R) :=
  (o.sent.foldl (fun l rq => (exchange C view peer env l (.modDn rq)).1) l, o.result.map (fun _ => .done))

/-- one call: add base.py:794-837, delete 907-922, mod_dn 926-953, move 968-980, modify 984-1050, compare 738-779, search 622-736, get 584-603, exists 605-620 (`LDAP.NO_ATTRS` is '1.1', base.py:174) -/
def call (l : Link M S) : Call V → Link M S × Except Err (Ret R)
  | .add dn attrs =>
    let r := ldapAdd env.lower env.conn.unbound env.addValidators env.ctrlsOk (fun rq => unitOf (exchange C view peer env l (.add rq.dn rq.attrs)).2) dn attrs
    (r.sent.foldl (fun l rq => (exchange C view peer env l (.add rq.dn rq.attrs)).1) l, r.result.map (fun d => .object dn d))
  | .delete dn =>
    if env.conn.unbound then (l, .error .unbound)
    else match env.ctrlsOk with
      | .error e => (l, .error e)
      | .ok _ =>
        let x := exchange C view peer env l (.delete dn)
        (x.1, (unitOf x.2).map (fun _ => .done))
  | .modDn dn newRdn clean parent =>
    sendModDn C view peer env l (ldapModDn env.conn.unbound env.ctrlsOk (fun rq => unitOf (exchange C view peer env l (.modDn rq)).2) dn newRdn clean parent)
  | .move dn newDn clean =>
    sendModDn C view peer env l (ldapMove env.conn.unbound env.ctrlsOk (fun rq => unitOf (exchange C view peer env l (.modDn rq)).2) dn newDn clean)
  | .modify dn mods current =>
    let r := ldapModify env.conn.unbound env.modValidators env.opts env.ctrlsOk (fun rq => unitOf (exchange C view peer env l (.modify rq)).2) dn mods current
    (r.sent.foldl (fun l rq => (exchange C view peer env l (.modify rq)).1) l, r.result.map (fun _ => .done))
  | .compare dn attr value =>
    if env.conn.unbound then (l, .error .unbound)
    else match env.ctrlsOk with
      | .error e => (l, .error e)
      | .ok _ =>
        let x := exchange C view peer env l (.compare dn attr value)
        (x.1, match x.2 with
          | .returns (.truth b) => .ok (.truth b)
          | .returns _ => .error .ldapError
          | .raises e => .error e
          | .waits => .error .osError)
  | .search a =>
    match searchAll C view peer env l a with
    | (l', .error e) => (l', .error e)
    | (l', .ok items) => (l', .ok (.found items))
  | .get_ dn attrs kwds =>
    match getOne C view peer env l dn attrs kwds with
    | (l', .error e) => (l', .error e)
    | (l', .ok x) => (l', .ok (.found [x]))
  | .exists_ dn =>
    match getOne C view peer env l dn (some [str "1.1"]) [] with
    | (l', .ok _) => (l', .ok (.truth true))
    | (l', .error .noResults) => (l', .ok (.truth false))
    | (l', .error .multipleResults) => (l', .ok (.truth true))
    | (l', .error e) => (l', .error e)

/-- calls one after the other -/
def run (l : Link M S) : List (Env V R × Call V) → Link M S × List (Except Err (Ret R))
  | [] => (l, [])
  | (env, c) :: cs =>
    let r := call C view peer env l c
    let q := run r.1 cs
    (q.1, r.2 :: q.2)

end
end Api
end Laurelin
