import Verif.Model.Conn
import Verif.Model.Utils
import Verif.Model.Prep
/-!
# Connection URIs, TLS layers and StartTLS (laurelin/ldap/net.py 51-212, 276-374; base.py 299-316, 353-358, 523-545, 1128-1208)

State: the sockets created so far with the channel under them, the table `_sockets`, and the `LDAP` instances. Every message sent is recorded with the channel it
was sent on, every message received with the channel it was read from. Responses arrive in chunks of whole messages (how messages are cut into
chunks of bytes is the subject of `Model/Net.lean`). The SASL security layer is not modelled here. The base DN is given, so the constructor needs nothing from the
root DSE. Python's `ssl` and the server are parameters. An `ssl` module with `SSLContext` is assumed (Python 2.7.9 or later).
-/
namespace Laurelin.Tls

/-- The certificate of the peer: the first attribute of each RDN of the subject, and the alternative names. -/
structure Cert where
  subject : List (Str × Str)
  sans : List (Str × Str)
  deriving DecidableEq, Repr

/-- `ca_file`, `ca_path`, `ca_data` -/
structure Cas where
  file : Option Str := none
  path : Option Str := none
  data : Option Str := none
  deriving DecidableEq, Repr

/-- Python truth of an optional string -/
def truthy : Option Str → Bool
  | some (_ :: _) => true
  | _ => false

/-- `ca_file or ca_path or ca_data`, net.py:196 -/
def Cas.any (c : Cas) : Bool := truthy c.file || truthy c.path || truthy c.data

/-- What the library's `ssl` context decides: whether the given locations can be loaded, and which certificates are trusted by the system's default certificates together with them. -/
structure Pki where
  load : Cas → Except Err Unit
  trusted : Cas → Cert → Bool

/-- What bytes travel over: TCP or a unix socket as it is, a TLS layer set up with these options to this peer, or a closed descriptor. -/
inductive Chan where
  | plain
  | tls (verify : Bool) (cas : Cas) (cert : Cert)
  | dead
  deriving DecidableEq, Repr

/-- The part of the root DSE used here: `supportedExtension` and `supportedSASLMechanisms`. -/
structure Dse where
  exts : List Str
  mechs : List Str
  deriving DecidableEq, Repr

/-- A response: a search entry, the end of a search or another final result (with success or not), an extended response, an intermediate response, anything else. -/
inductive Resp where
  | entry (d : Dse)
  | done (ok : Bool)
  | ext (ok : Bool) (value : Option Str)
  | inter (value : Option Str)
  | result (ok : Bool)
  | other
  deriving DecidableEq, Repr

/-- a message from the server -/
structure Msg where
  mid : Nat
  resp : Resp
  deriving DecidableEq, Repr

/-- a message to the server: a root DSE search, an extended request, another operation, an unbind request -/
inductive Req where
  | rootDse
  | ext (oid : Str)
  | op
  | unbind
  deriving DecidableEq, Repr

/-- a message sent: on which channel, with which id -/
structure Sent where
  chan : Chan
  id : Nat
  req : Req
  deriving DecidableEq, Repr

/-- `LDAPSocket`, net.py:62-78, 95 -/
structure Sock where
  scheme : Str
  uri : Str
  host : Str
  chan : Chan := .plain
  startedTls : Bool := false
  refcount : Int := 0
  unbound : Bool := false
  nextId : Nat := 1
  queues : PDict Nat (List (Chan × Resp)) := []
  sent : List Sent := []
  deriving DecidableEq, Repr

/-! ### Connecting, net.py:80-163 -/

/-- `_parse_uri`: the scheme and the network location, net.py:80-95 -/
def parseUri (unquote : Str → Str) (hostUri : Str) : Except Err (Str × Str) :=
  match Conn.splitScheme hostUri with
  | [p] =>
    match unquote p with
    | [] => .error .indexError
    | c :: r => .ok (if c = '/' then str "ldapi" else str "ldap", c :: r)
  | [sch, p] => .ok (sch, unquote p)
  | _ => .error .ldapError

/-- `s.rsplit(':', 1)`: at the last colon, if there is one -/
def rsplitColon : Str → Str × Option Str
  | [] => ([], none)
  | c :: t =>
    match rsplitColon t with
    | (h, some p) => (c :: h, some p)
    | (h, none) => if c = ':' then ([], some h) else (c :: h, none)

/-- digits with single underscores between them, most significant first -/
def digitsVal : Bool → Nat → Str → Option Nat
  | _, n, [] => some n
  | under, n, c :: t =>
    if c.isDigit then digitsVal true (10 * n + (c.toNat - '0'.toNat)) t
    else if c = '_' ∧ under = true then
      match t with
      | [] => none
      | d :: t' => if d.isDigit then digitsVal true (10 * n + (d.toNat - '0'.toNat)) t' else none
    else none

/-- `int(s)` (Python builtin): surrounding whitespace, a sign, decimal digits with single underscores between them. Only ASCII digits are known here. -/
def pyInt (s : Str) : Except Err Int :=
  match pyStrip (inClass pySpace) s with
  | '-' :: c :: t => if c.isDigit then (match digitsVal false 0 (c :: t) with | some n => .ok (-(n : Int)) | none => .error .valueError) else .error .valueError
  | '+' :: c :: t => if c.isDigit then (match digitsVal false 0 (c :: t) with | some n => .ok n | none => .error .valueError) else .error .valueError
  | c :: t => if c.isDigit then (match digitsVal false 0 (c :: t) with | some n => .ok n | none => .error .valueError) else .error .valueError
  | [] => .error .valueError

/-- the operating system: connecting to an address (`none`: connected; an error other than a socket error, such as a port out of range, is passed on), whether there are unix sockets,
the files matching a pattern, and whether a unix socket accepts connections -/
structure Net where
  inet : Str → Int → Option Err
  haveUnix : Bool
  glob : Str → List Str
  unix : Str → Bool

/-- what was connected to -/
inductive Target where
  | inet (host : Str) (port : Int)
  | unix (path : Str)
  deriving DecidableEq, Repr

/-- the port, net.py:154-157 -/
def portOf (defaultPort : Int) : Option Str → Except Err Int
  | none => .ok defaultPort
  | some p => pyInt p

/-- `_inet_connect`, net.py:151-163: `SocketError` becomes `LDAPConnectionError` -/
def inetConnect (net : Net) (netloc : Str) (defaultPort : Int) : Except Err Target :=
  let ap := rsplitColon netloc
  match portOf defaultPort ap.2 with
  | .error e => .error e
  | .ok port =>
    match net.inet ap.1 port with
    | none => .ok (.inet ap.1 port)
    | some e => .error (if e = Err.osError then .connection else e)

/-- the search for a local socket, net.py:115-132: patterns with exactly one match, in order, until one accepts -/
def findUnix (net : Net) : List Str → Except Err Target
  | [] => .error .connection
  | g :: gs =>
    match net.glob g with
    | [f] => if net.unix f then .ok (.unix f) else findUnix net gs
    | _ => findUnix net gs

/-- `LDAPI_SOCKET_PATHS`, net.py:50 -/
def socketPaths : List Str := [str "/var/run/ldapi", str "/var/run/slapd/ldapi", str "/var/run/slapd-*.socket"]

/-- `_uri_connect` up to the TLS layer, net.py:97-144 -/
def dial (net : Net) (scheme netloc : Str) : Except Err Target :=
  if scheme = str "ldap" then inetConnect net netloc 389
  else if scheme = str "ldaps" then inetConnect net netloc 636
  else if scheme = str "ldapi" then
    if !net.haveUnix then .error .ldapError
    else if netloc = ['/'] then findUnix net socketPaths
    else if net.unix netloc then .ok (.unix netloc) else .error .connection
  else .error .ldapError

/-- `self.host`, net.py:113, 153 -/
def Target.host : Target → Str
  | .inet h _ => h
  | .unix _ => str "localhost"

/-! ### The TLS layer, net.py:165-212 -/

/-- Making the context and wrapping the socket, net.py:191-198. A failure to load the CA locations leaves the socket as it is; `wrap_socket` takes the descriptor away from the old socket object before the handshake and
closes it when the handshake fails. `peer`: the outcome of the handshake short of verification. Wrapping replaces an earlier TLS layer (the new object takes over the descriptor). -/
def wrap (pki : Pki) (s : Sock) (verify : Bool) (cas : Cas) (peer : Except Err Cert) : Except Err Cert × Sock :=
  match (if cas.any then pki.load cas else .ok ()) with
  | .error e => (.error e, s)
  | .ok () =>
    if s.unbound ∨ s.chan = .dead then (.error .osError, s)
    else
      match peer with
      | .error e => (.error e, { s with chan := .dead })
      | .ok cert =>
        if verify && !pki.trusted cas cert then (.error .osError, { s with chan := .dead })
        else (.ok cert, { s with chan := .tls verify cas cert })

/-- `LDAPSocket.start_tls`, net.py:165-212 -/
def Sock.startTls (pki : Pki) (s : Sock) (verify : Bool) (cas : Cas) (peer : Except Err Cert) : Except Err Unit × Sock :=
  if s.startedTls then (.error .ldapError, s)
  else
    match wrap pki s verify cas peer with
    | (.error e, s) => (.error e, s)
    | (.ok cert, s) =>
      match verifyCert s.host verify cert.subject cert.sans with
      | .error e => (.error e, s)
      | .ok () => (.ok (), { s with startedTls := true })

/-- `LDAPSocket(host_uri, timeout, ssl_verify, ...)`, net.py:55-60, 97-144 -/
def newSock (unq : Str → Str) (pki : Pki) (net : Net) (u : Str) (verify : Bool) (cas : Cas) (peer : Except Err Cert) : Except Err Sock :=
  match parseUri unq u with
  | .error e => .error e
  | .ok (scheme, netloc) =>
    match dial net scheme netloc with
    | .error e => .error e
    | .ok t =>
      let s : Sock := { scheme := scheme, uri := scheme ++ str "://" ++ netloc, host := t.host }
      if scheme = str "ldaps" then
        match s.startTls pki verify cas peer with
        | (.error e, _) => .error e
        | (.ok (), s) => .ok s
      else .ok s

/-! ### Sending and receiving, net.py:276-374 -/

/-- `send_message`: the id is used up even if packing (ids above `maxInt`) or `sendall` (closed descriptor) fails. net.py:276-301 -/
def Sock.send (s : Sock) (r : Req) : Except Err Nat × Sock :=
  if Conn.maxInt < s.nextId then (.error .typeError, { s with nextId := s.nextId + 1 })
  else if s.unbound ∨ s.chan = .dead then (.error .osError, { s with nextId := s.nextId + 1 })
  else (.ok s.nextId, { s with nextId := s.nextId + 1, sent := s.sent ++ [⟨s.chan, s.nextId, r⟩] })

/-- what the consumer of a response generator does with a message: go on, or stop with a result -/
inductive Step (σ α : Type) where
  | more (s : σ)
  | fin (r : Except Err α)

/-- messages from the queue, net.py:326-335: each is removed before it is handed out -/
def drain (step : σ → Chan × Resp → Step σ α) : List (Chan × Resp) → σ → Step σ α × List (Chan × Resp)
  | [], s => (.more s, [])
  | m :: q, s =>
    match step s m with
    | .more s => drain step q s
    | .fin r => (.fin r, q)

/-- `self._message_queues[mid].append(response)`, net.py:365-368 -/
def pushQ (q : PDict Nat (List (Chan × Resp))) (mid : Nat) (m : Chan × Resp) : PDict Nat (List (Chan × Resp)) := q.set mid ((q.get? mid).getD [] ++ [m])

/-- the messages of one chunk, net.py:344-368: wanted ones are handed out, an unsolicited one raises, others are queued. When the consumer stops, the rest of the chunk is lost with
the generator. -/
def readChunk (step : σ → Chan × Resp → Step σ α) (mid : Nat) (ch : Chan) : List Msg → σ → PDict Nat (List (Chan × Resp)) → Step σ α × PDict Nat (List (Chan × Resp))
  | [], s, q => (.more s, q)
  | m :: ms, s, q =>
    if mid = m.mid then
      match step s (ch, m.resp) with
      | .more s => readChunk step mid ch ms s q
      | .fin r => (.fin r, q)
    else if m.mid = 0 then (.fin (.error .unsolicited), q)
    else readChunk step mid ch ms s (pushQ q m.mid (ch, m.resp))

/-- chunk after chunk; `none`: waiting for the server -/
def readChunks (step : σ → Chan × Resp → Step σ α) (mid : Nat) (ch : Chan) : List (List Msg) → σ → PDict Nat (List (Chan × Resp)) →
    Option (Except Err α) × PDict Nat (List (Chan × Resp))
  | [], _, q => (none, q)
  | c :: cs, s, q =>
    match readChunk step mid ch c s q with
    | (.fin r, q) => (some r, q)
    | (.more s, q) => readChunks step mid ch cs s q

/-- Consuming `recv_messages(mid)` in one go: first what is queued for the id, then what is read. `inc`: the chunks that arrive. net.py:312-374 -/
def Sock.recv (step : σ → Chan × Resp → Step σ α) (init : σ) (s : Sock) (mid : Nat) (inc : List (List Msg)) : Option (Except Err α) × Sock :=
  match drain step ((s.queues.get? mid).getD []) init with
  | (.fin r, rest) => (some r, { s with queues := if rest = [] then s.queues.erase mid else s.queues.set mid rest })
  | (.more st, _) =>
    let s := { s with queues := s.queues.erase mid }
    if s.unbound ∨ s.chan = .dead then (some (.error .osError), s)
    else
      let r := readChunks step mid s.chan inc st s.queues
      (r.1, { s with queues := r.2 })

/-! ### Requests of `LDAP` -/

/-- An `LDAP` instance: its socket, its TLS settings, its root DSE and where that came from. base.py:281-313, 353-358 -/
structure Inst where
  sock : Nat
  verify : Bool
  cas : Cas
  dse : Chan × Dse
  deriving DecidableEq, Repr

/-- the consumer of the root DSE search: `list(...)` of the result handle, then `get_one_result`. base.py:602-603, 1567-1592; utils.py:174-181. References and other messages are errors here. -/
def dseStep (acc : List (Chan × Dse)) : Chan × Resp → Step (List (Chan × Dse)) (Chan × Dse)
  | (c, .entry d) => .more (acc ++ [(c, d)])
  | (_, .done true) => .fin (match acc with | [] => .error .noResults | [x] => .ok x | _ => .error .multipleResults)
  | (_, .done false) => .fin (.error .ldapError)
  | _ => .fin (.error .unexpectedResponse)

/-- the consumer of an extended response with `require_success=True`, base.py:1634-1650: the value handed out. An intermediate response is handed out as well. -/
def extStep (_ : Unit) : Chan × Resp → Step Unit (Chan × Str)
  | (c, .inter v) => .fin (.ok (c, v.getD []))
  | (c, .ext true v) => .fin (.ok (c, v.getD []))
  | (_, .ext false _) => .fin (.error .ldapError)
  | _ => .fin (.error .unexpectedResponse)

/-- `_success_result`, base.py:365-383 -/
def opStep (_ : Unit) : Chan × Resp → Step Unit (Chan × Str)
  | (c, .result true) => .fin (.ok (c, []))
  | (_, .result false) => .fin (.error .ldapError)
  | _ => .fin (.error .unexpectedResponse)

/-- `get('', ['*', '+'])`, base.py:357, 600-603: refused on a closed connection -/
def Sock.readDse (s : Sock) (inc : List (List Msg)) : Option (Except Err (Chan × Dse)) × Sock :=
  if s.unbound then (some (.error .unbound), s)
  else
    match s.send .rootDse with
    | (.error e, s) => (some (.error e), s)
    | (.ok mid, s) => s.recv dseStep [] mid inc

/-- `OID_STARTTLS`, base.py:182 -/
abbrev oidStartTls : Str := str "1.3.6.1.4.1.1466.20037"
/-- `OID_WHOAMI`, base.py:181 -/
abbrev oidWhoAmI : Str := str "1.3.6.1.4.1.4203.1.11.3"

/-- `send_extended_request(oid, require_success=True)` followed by `recv_response()`, base.py:1146-1157, 1657-1658. Support is looked up in the root DSE by equality of strings (the
matching rule of the attribute, if a schema gives one, is ignored here). -/
def Sock.extended (s : Sock) (dse : Dse) (oid : Str) (inc : List (List Msg)) : Option (Except Err (Chan × Str)) × Sock :=
  if oid ∈ dse.exts then
    match s.send (.ext oid) with
    | (.error e, s) => (some (.error e), s)
    | (.ok mid, s) => s.recv extStep () mid inc
  else (some (.error .ldapSupport), s)

/-- `LDAP.start_tls` on the instance's socket, base.py:1194-1208: the new root DSE if it succeeds. `verify`, `cas`: after the defaults were filled in. -/
def Sock.ldapStartTls (pki : Pki) (s : Sock) (dse : Dse) (verify : Bool) (cas : Cas) (peer : Except Err Cert) (inc1 inc2 : List (List Msg)) :
    Option (Except Err (Chan × Dse)) × Sock :=
  if s.startedTls then (some (.error .ldapError), s)
  else
    match s.extended dse oidStartTls inc1 with
    | (none, s) => (none, s)
    | (some (.error e), s) => (some (.error e), s)
    | (some (.ok _), s) =>
      match s.startTls pki verify cas peer with
      | (.error e, s) => (some (.error e), s)
      | (.ok (), s) => s.readDse inc2

/-- client process -/
structure St where
  socks : List Sock := []
  table : PDict Str Nat := []
  insts : List Inst := []
  deriving DecidableEq, Repr

/-- update of one socket -/
def St.setSock (st : St) (i : Nat) (s : Sock) : St := { st with socks := st.socks.set i s }

/-- What a call gives: nothing yet (waiting), an error, or a value and the channel it was read from. -/
inductive Out where
  | waits
  | err (e : Err)
  | ok
  | value (c : Chan) (v : Str)
  deriving DecidableEq, Repr

/-- `None`: the connection's own setting. base.py:1196-1203 -/
def Cas.orElse (a b : Cas) : Cas := ⟨a.file.or b.file, a.path.or b.path, a.data.or b.data⟩

/-- public calls -/
inductive Ev where
  | connect (u : Str) (reuse verify : Bool) (cas : Cas) (peer : Except Err Cert) (inc : List (List Msg))
  | startTls (i : Nat) (verify : Option Bool) (cas : Cas) (peer : Except Err Cert) (inc1 inc2 : List (List Msg))
  | whoAmI (i : Nat) (inc : List (List Msg))
  | operation (i : Nat) (inc : List (List Msg))
  | unbind (i : Nat) (force : Bool)

/-- rest of the constructor: count the reference, read the root DSE. base.py:316, 331-332 -/
def St.attach (st : St) (k : Nat) (verify : Bool) (cas : Cas) (inc : List (List Msg)) : Out × St :=
  match st.socks[k]? with
  | none => (.err .attributeError, st)
  | some s =>
    match ({ s with refcount := s.refcount + 1 } : Sock).readDse inc with
    | (none, s) => (.waits, st.setSock k s)
    | (some (.error e), s) => (.err e, st.setSock k s)
    | (some (.ok d), s) => (.ok, { st.setSock k s with insts := st.insts ++ [⟨k, verify, cas, d⟩] })

/-- `LDAP(server=u, reuse_connection=reuse, ssl_verify=verify, ...)`, base.py:299-316 -/
def St.connect (unq : Str → Str) (pki : Pki) (net : Net) (st : St) (u : Str) (reuse verify : Bool) (cas : Cas) (peer : Except Err Cert) (inc : List (List Msg)) : Out × St :=
  match (if reuse then st.table.get? u else none) with
  | some k => st.attach k verify cas inc
  | none =>
    match newSock unq pki net u verify cas peer with
    | .error e => (.err e, st)
    | .ok s =>
      St.attach { st with socks := st.socks ++ [s], table := if reuse then st.table.set u st.socks.length else st.table } st.socks.length verify cas inc

/-- `LDAP.start_tls(verify, ca_file, ca_path, ca_data)`, base.py:1172-1208 -/
def St.startTls (pki : Pki) (st : St) (i : Nat) (verify : Option Bool) (cas : Cas) (peer : Except Err Cert) (inc1 inc2 : List (List Msg)) : Out × St :=
  match st.insts[i]? with
  | none => (.err .attributeError, st)
  | some c =>
    match st.socks[c.sock]? with
    | none => (.err .attributeError, st)
    | some s =>
      match s.ldapStartTls pki c.dse.2 (verify.getD c.verify) (cas.orElse c.cas) peer inc1 inc2 with
      | (none, s) => (.waits, st.setSock c.sock s)
      | (some (.error e), s) => (.err e, st.setSock c.sock s)
      | (some (.ok d), s) => (.ok, { st.setSock c.sock s with insts := st.insts.set i { c with dse := d } })

/-- `LDAP.who_am_i()`, base.py:1159-1170 -/
def St.whoAmI (st : St) (i : Nat) (inc : List (List Msg)) : Out × St :=
  match st.insts[i]? with
  | none => (.err .attributeError, st)
  | some c =>
    match st.socks[c.sock]? with
    | none => (.err .attributeError, st)
    | some s =>
      match s.extended c.dse.2 oidWhoAmI inc with
      | (none, s) => (.waits, st.setSock c.sock s)
      | (some (.error e), s) => (.err e, st.setSock c.sock s)
      | (some (.ok (ch, v)), s) => (.value ch v, st.setSock c.sock s)

/-- Any operation that sends one request and waits for one result (bind, compare, add, delete, modify, mod_dn), e.g. base.py:907-922 -/
def St.operation (st : St) (i : Nat) (inc : List (List Msg)) : Out × St :=
  match st.insts[i]? with
  | none => (.err .attributeError, st)
  | some c =>
    match st.socks[c.sock]? with
    | none => (.err .attributeError, st)
    | some s =>
      if s.unbound then (.err .unbound, st)
      else
        match s.send .op with
        | (.error e, s) => (.err e, st.setSock c.sock s)
        | (.ok mid, s) =>
          match s.recv opStep () mid inc with
          | (none, s) => (.waits, st.setSock c.sock s)
          | (some (.error e), s) => (.err e, st.setSock c.sock s)
          | (some (.ok (ch, v)), s) => (.value ch v, st.setSock c.sock s)

/-- `LDAP.unbind(force)`, base.py:523-545 -/
def St.unbind (st : St) (i : Nat) (force : Bool) : Out × St :=
  match st.insts[i]? with
  | none => (.err .attributeError, st)
  | some c =>
    match st.socks[c.sock]? with
    | none => (.err .attributeError, st)
    | some s =>
      if s.unbound then (.err .unbound, st)
      else
        let s := { s with refcount := s.refcount - 1 }
        if force || s.refcount == 0 then
          match s.send .unbind with
          | (.error e, s) => (.err e, st.setSock c.sock s)
          | (.ok _, s) => (.ok, { st.setSock c.sock { s with unbound := true } with table := st.table.erase s.uri })
        else (.ok, st.setSock c.sock s)

/-- one call -/
def St.step (unq : Str → Str) (pki : Pki) (net : Net) (st : St) : Ev → Out × St
  | .connect u reuse verify cas peer inc => st.connect unq pki net u reuse verify cas peer inc
  | .startTls i verify cas peer inc1 inc2 => st.startTls pki i verify cas peer inc1 inc2
  | .whoAmI i inc => st.whoAmI i inc
  | .operation i inc => st.operation i inc
  | .unbind i force => st.unbind i force

/-- the state after a history of calls -/
def St.run (unq : Str → Str) (pki : Pki) (net : Net) (st : St) : List Ev → St
  | [] => st
  | e :: es => St.run unq pki net (st.step unq pki net e).2 es

end Laurelin.Tls
