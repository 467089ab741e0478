import Verif.Model.Basic
/-!
# Connections: shared sockets, message ids, bind state (laurelin/ldap/base.py 220-545, 1128-1157; net.py 62-95, 276-301)

State: the `LDAPSocket` objects created so far, the module-level table `_sockets`, and the `LDAP` instances.
The server's answers are parts of the events. Python's garbage collection is not modelled: sockets stay in the list.
-/
namespace Laurelin.Conn

/-- largest message id, `rfc4511.MessageID` (rfc4511.py:57, 86) -/
def maxInt : Nat := 2147483647

/-- `LDAPSocket` (net.py:62-78). `sent` records the message ids transmitted (the observable effect of `sendall`). -/
structure Sock where
  uri : Str
  refcount : Int := 0
  bound : Bool := false
  unbound : Bool := false
  nextId : Nat := 1
  sent : List Nat := []
  deriving Repr, DecidableEq

/-- The fields of `LDAP` that matter here: its socket, `_sasl_mechs`, `default_sasl_mech`, `sasl_fatal_downgrade_check`. -/
structure Inst where
  sock : Nat
  mechs : Option (List Str) := none
  defaultMech : Option Str := none
  fatal : Bool := true
  deriving Repr, DecidableEq

/-- Whole client process. `table` is `_sockets` (base.py:29 ff.): host_uri to socket. -/
structure St where
  socks : List Sock := []
  table : PDict Str Nat := []
  insts : List Inst := []
  deriving Repr, DecidableEq

/-- Outcome of a call; `waits`: blocked on the server. -/
inductive Res where
  | ok
  | err (e : Err)
  | waits
  deriving Repr, DecidableEq

/-- `s.split('://')` (Python builtin): `go acc s`, `acc` is the current piece. -/
def splitScheme.go (acc : Str) : Str → List Str
  | ':' :: '/' :: '/' :: t => acc :: splitScheme.go [] t
  | c :: t => splitScheme.go (acc ++ [c]) t
  | [] => [acc]
/-- `s.split('://')` -/
def splitScheme (s : Str) : List Str := splitScheme.go [] s

/-- `LDAPSocket._parse_uri`: the `uri` attribute. `unquote` is urllib's. net.py:80-95 -/
def sockUri (unquote : Str → Str) (hostUri : Str) : Except Err Str :=
  match splitScheme hostUri with
  | [p] =>
    match unquote p with
    | [] => .error .indexError
    | c :: r => .ok ((if c = '/' then str "ldapi" else str "ldap") ++ str "://" ++ (c :: r))
  | [sch, p] => .ok (sch ++ str "://" ++ unquote p)
  | _ => .error .ldapError

/-- update of one socket -/
def St.setSock (st : St) (i : Nat) (s : Sock) : St := { st with socks := st.socks.set i s }

/-- `send_message`: takes the next id, packs (which may fail; it always does above `maxInt`), then `sendall`, which raises
`OSError` on a closed socket. net.py:276-301 -/
def St.send (st : St) (i : Nat) (packOk : Bool) : Except Err Unit × St :=
  match st.socks[i]? with
  | none => (.error .attributeError, st)
  | some s =>
    if !(packOk && s.nextId ≤ maxInt) then (.error .typeError, st.setSock i { s with nextId := s.nextId + 1 })
    else if s.unbound then (.error .osError, st.setSock i { s with nextId := s.nextId + 1 })
    else (.ok (), st.setSock i { s with nextId := s.nextId + 1, sent := s.sent ++ [s.nextId] })

/-- What happens when the constructor talks to the network: `dial` – `LDAPSocket(...)` could connect; `dse` – the root DSE search was
answered with this list of SASL mechanisms (`none`: it failed, or no base DN could be determined). -/
structure Net where
  dial : Bool
  dse : Option (List Str)
  deriving Repr, DecidableEq

/-- The rest of `LDAP.__init__` once `self.sock` is chosen: count the reference, read the root DSE (`get`: raises `ConnectionUnbound` on a
closed socket, else sends one search). base.py:316, 330-351, 353-358, 600-603 -/
def St.attach (st : St) (i : Nat) (fatal : Bool) (dm : Option Str) (net : Net) : Res × St :=
  match st.socks[i]? with
  | none => (.err .attributeError, st)
  | some s =>
    let st := st.setSock i { s with refcount := s.refcount + 1 }
    if s.unbound then (.err .unbound, st)
    else
      match st.send i true with
      | (.error e, st) => (.err e, st)
      | (.ok (), st) =>
        match net.dse with
        | none => (.err .ldapError, st)
        | some ms => (.ok, { st with insts := st.insts ++ [⟨i, some ms, dm, fatal⟩] })

/-- `LDAPSocket(host_uri, ...)`. net.py:57-95 -/
def St.newSock (unq : Str → Str) (st : St) (u : Str) (net : Net) : Except Err Nat × St :=
  match sockUri unq u with
  | .error e => (.error e, st)
  | .ok uri =>
    if net.dial then (.ok st.socks.length, { st with socks := st.socks ++ [{ uri := uri }] })
    else (.error .connection, st)

/-- `LDAP(server=u, reuse_connection=reuse)`. base.py:300-316 -/
def St.connect (unq : Str → Str) (st : St) (u : Str) (reuse fatal : Bool) (dm : Option Str) (net : Net) : Res × St :=
  if reuse then
    match st.table.get? u with
    | some i => st.attach i fatal dm net
    | none =>
      match st.newSock unq u net with
      | (.error e, st) => (.err e, st)
      | (.ok i, st) => ({ st with table := st.table.set u i }).attach i fatal dm net
  else
    match st.newSock unq u net with
    | (.error e, st) => (.err e, st)
    | (.ok i, st) => st.attach i fatal dm net

/-- `LDAP.unbind(force)`. base.py:523-545 -/
def St.unbind (st : St) (i : Nat) (force : Bool) : Res × St :=
  match st.insts[i]? with
  | none => (.err .attributeError, st)
  | some c =>
    match st.socks[c.sock]? with
    | none => (.err .attributeError, st)
    | some s =>
      if s.unbound then (.err .unbound, st)
      else
        let st := st.setSock c.sock { s with refcount := s.refcount - 1 }
        if force || s.refcount - 1 == 0 then
          match st.send c.sock true with
          | (.error e, st) => (.err e, st)
          | (.ok (), st) =>
            match st.socks[c.sock]? with
            | none => (.err .attributeError, st)
            | some s' => (.ok, { st.setSock c.sock { s' with unbound := true } with table := st.table.erase s.uri })
        else (.ok, st)

/-- A bind response. `inProgress ok`: a SASL challenge, to which the client library finds an answer iff `ok`. -/
inductive Ans where
  | success
  | inProgress (ok : Bool)
  | failure
  deriving Repr, DecidableEq

/-- `LDAP.simple_bind`; `packOk`: building the request succeeded. base.py:385-418 -/
def St.simpleBind (st : St) (i : Nat) (packOk : Bool) (ans : Option Ans) : Res × St :=
  match st.insts[i]? with
  | none => (.err .attributeError, st)
  | some c =>
    match st.socks[c.sock]? with
    | none => (.err .attributeError, st)
    | some s =>
      if s.unbound then (.err .unbound, st)
      else if s.bound then (.err .alreadyBound, st)
      else
        match st.send c.sock packOk with
        | (.error e, st) => (.err e, st)
        | (.ok (), st) =>
          match ans, st.socks[c.sock]? with
          | none, _ => (.waits, st)
          | some .success, some s' => (.ok, st.setSock c.sock { s' with bound := true })
          | some _, _ => (.err .ldapError, st)

/-- Set equality as Python's `set(a) != set(b)` decides it. -/
def sameSet (a b : List Str) : Bool := a.all (· ∈ b) && b.all (· ∈ a)

/-- `recheck_sasl_mechs` with the answer to the new root DSE query. base.py:434-453 -/
def St.recheck (st : St) (i : Nat) (answer : Option (List Str)) : Res × St :=
  match st.insts[i]? with
  | none => (.err .attributeError, st)
  | some c =>
    match c.mechs with
    | none => (.err .ldapError, st)
    | some orig =>
      let st := { st with insts := st.insts.set i { c with mechs := none } }
      match st.send c.sock true with
      | (.error e, st) => (.err e, st)
      | (.ok (), st) =>
        match answer with
        | none => (.err .noResults, st)
        | some new =>
          let st := { st with insts := st.insts.set i { c with mechs := some new } }
          if sameSet orig new then (.ok, st)
          else if c.fatal then (.err .ldapError, st)
          else (.ok, st)

/-- The request/response loop of `sasl_bind`: one bind request per server answer. base.py:487-520 -/
def St.saslLoop (st : St) (i k : Nat) (answer : Option (List Str)) : List Ans → Res × St
  | [] =>
    match st.send k true with
    | (.error e, st) => (.err e, st)
    | (.ok (), st) => (.waits, st)
  | a :: as =>
    match st.send k true with
    | (.error e, st) => (.err e, st)
    | (.ok (), st) =>
      match a with
      | .inProgress true => St.saslLoop st i k answer as
      | .inProgress false => (.err .saslError, st)
      | .failure => (.err .ldapError, st)
      | .success =>
        match st.socks[k]? with
        | none => (.err .attributeError, st)
        | some s' => (st.setSock k { s' with bound := true }).recheck i answer

/-- The mechanism list handed to the SASL library, base.py:476-484: all advertised ones, or the one asked for if advertised. -/
def candidates (advertised : List Str) (mech dm : Option Str) : Except Err (List Str) :=
  match (match mech with | none => dm | some m => some m) with
  | none => .ok advertised
  | some m => if m ∈ advertised then .ok [m] else .error .ldapSupport

/-- `LDAP.sasl_bind(mech)`; `choose` is the SASL library's selection among the offered mechanisms, `firstDse` the answer
to a root DSE query in case the list was not cached, `answer` the answer to the re-check. base.py:455-521 -/
def St.saslBind (choose : List Str → Option Str) (st : St) (i : Nat) (mech : Option Str) (firstDse answer : Option (List Str))
    (anss : List Ans) : Res × St × Option Str :=
  match st.insts[i]? with
  | none => (.err .attributeError, st, none)
  | some c =>
    match st.socks[c.sock]? with
    | none => (.err .attributeError, st, none)
    | some s =>
      if s.unbound then (.err .unbound, st, none)
      else if s.bound then (.err .alreadyBound, st, none)
      else
        let got : Except Err (List Str) × St := match c.mechs with
          | some ms => (.ok ms, st)
          | none =>
            match st.send c.sock true with
            | (.error e, st) => (.error e, st)
            | (.ok (), st) =>
              match firstDse with
              | none => (.error .noResults, st)
              | some ms => (.ok ms, { st with insts := st.insts.set i { c with mechs := some ms } })
        match got with
        | (.error e, st) => (.err e, st, none)
        | (.ok ms, st) =>
          match candidates ms mech c.defaultMech with
          | .error e => (.err e, st, none)
          | .ok cand =>
            match choose cand with
            | none => (.err .saslError, st, none)
            | some m => ((st.saslLoop i c.sock answer anss).1, (st.saslLoop i c.sock answer anss).2, some m)

/-- Any of search, get, exists, compare, add, delete, mod_dn, non-empty modify: check, then send. `packOk` – building the request succeeded.
base.py:600, 612, 676, 752, 796, 917, 941, 1000 -/
def St.operation (st : St) (i : Nat) (packOk : Bool) : Res × St :=
  match st.insts[i]? with
  | none => (.err .attributeError, st)
  | some c =>
    match st.socks[c.sock]? with
    | none => (.err .attributeError, st)
    | some s =>
      if s.unbound then (.err .unbound, st)
      else
        match st.send c.sock packOk with
        | (.error e, st) => (.err e, st)
        | (.ok (), st) => (.ok, st)

/-- An extended request (`send_extended_request`, `who_am_i`, `start_tls`) or an abandon request: no check. base.py:1146-1157, 1553 -/
def St.extended (st : St) (i : Nat) (packOk : Bool) : Res × St :=
  match st.insts[i]? with
  | none => (.err .attributeError, st)
  | some c =>
    match st.send c.sock packOk with
    | (.error e, st) => (.err e, st)
    | (.ok (), st) => (.ok, st)

/-- The public calls. `share i`: `LDAP(server=other.sock)`, base.py:311-313. -/
inductive Ev where
  | connect (u : Str) (reuse fatal : Bool) (dm : Option Str) (net : Net)
  | share (i : Nat) (fatal : Bool) (dm : Option Str) (net : Net)
  | unbind (i : Nat) (force : Bool)
  | simpleBind (i : Nat) (packOk : Bool) (ans : Option Ans)
  | saslBind (i : Nat) (mech : Option Str) (firstDse answer : Option (List Str)) (anss : List Ans)
  | operation (i : Nat) (packOk : Bool)
  | extended (i : Nat) (packOk : Bool)
  deriving Repr

/-- one call -/
def St.step (unq : Str → Str) (choose : List Str → Option Str) (st : St) : Ev → Res × St
  | .connect u reuse fatal dm net => st.connect unq u reuse fatal dm net
  | .share i fatal dm net =>
    match st.insts[i]? with
    | none => (.err .attributeError, st)
    | some c => st.attach c.sock fatal dm net
  | .unbind i force => st.unbind i force
  | .simpleBind i ok ans => st.simpleBind i ok ans
  | .saslBind i mech f a anss => ((st.saslBind choose i mech f a anss).1, (st.saslBind choose i mech f a anss).2.1)
  | .operation i ok => st.operation i ok
  | .extended i ok => st.extended i ok

/-- a history of calls, starting from nothing: results and final state -/
def St.run (unq : Str → Str) (choose : List Str → Option Str) (st : St) : List Ev → List Res × St
  | [] => ([], st)
  | e :: es =>
    let (r, st') := st.step unq choose e
    let (rs, st'') := St.run unq choose st' es
    (r :: rs, st'')

end Laurelin.Conn
