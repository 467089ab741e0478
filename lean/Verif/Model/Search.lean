import Verif.Model.Controls
/-!
# Search results, get/exists, compare, extended responses (laurelin/ldap/base.py 584-620, 738-779, 365-383, 1518-1658, 1715-1762)

A handle reads the messages `recv_messages` yields for its id (see `Model/Net.lean`), here a list; when it runs out the
reader waits. `E` is the contents of a search result entry, `R` the type of decoded response control values.
-/
namespace Laurelin.Search
open Laurelin.Controls
variable {V R E : Type}

/-- Result codes used by the code (rfc4511.py `ResultCode`). -/
abbrev rcSuccess : Nat := 0
abbrev rcCompareFalse : Nat := 5
abbrev rcCompareTrue : Nat := 6
abbrev rcReferral : Nat := 10
abbrev rcNoSuchObject : Nat := 32

/-- A message for the search: entry, final result (code, response controls, referral URIs), continuation reference, anything else. -/
inductive Msg (E : Type) where
  | entry (e : E) (ctrls : List Wire)
  | done (code : Nat) (ctrls : List Wire) (referral : List Str)
  | ref (uris : List Str) (ctrls : List Wire)
  | other
  deriving DecidableEq, Repr

/-- What iteration yields: an object built from an entry, or a reference handle, each with response control attributes. -/
inductive Item (E R : Type) where
  | entry (e : E) (attrs : PDict Str R)
  | ref (uris : List Str) (attrs : PDict Str R)
  deriving DecidableEq, Repr

/-- How a generator ends. `waiting`: it blocks for more messages. -/
inductive Ending where
  | stop
  | raised (e : Err)
  | waiting
  deriving DecidableEq, Repr

/-- What a handle works with: registered controls, its options (base.py:1561-1565), the attribute names an `LDAPObject` / a reference handle
has anyway, and what `SearchReferenceHandle(uris, ...).fetch()` gives: the objects it yields, then an exception if any. -/
structure Env (V R E : Type) where
  reg : Reg V R
  fetchRefs : Bool
  follow : Bool
  objOwn : List Str
  refOwn : List Str
  fetch : List Str → List (Item E R) × Option Err

/-- The state of a handle and everything seen while iterating it to the end. `rest`: messages not consumed. -/
structure Out (E R : Type) where
  yields : List (Item E R)
  ending : Ending
  rest : List (Msg E)
  done : Bool
  target : Target R

/-- prepend what was yielded before -/
def Out.after (l : List (Item E R)) (o : Out E R) : Out E R := { o with yields := l ++ o.yields }

/-- `SearchResultHandle.__iter__`, base.py:1567-1621. `tag`: the `tag` keyword of the search, `some b` if given, `b` whether it is already
in use (`LDAP.obj`, base.py:577-581). -/
def iterate (env : Env V R E) : Option Bool → Target R → List (Msg E) → Out E R
  | _, t, [] => ⟨[], .waiting, [], false, t⟩
  | tag, t, .entry e cs :: ms =>
    if tag = some true then ⟨[], .raised .tagError, ms, false, t⟩
    else
      match handleResponse env.reg ⟨env.objOwn, []⟩ cs with
      | (.error e', _) => ⟨[], .raised e', ms, false, t⟩
      | (.ok _, o) => (iterate env (tag.map fun _ => true) t ms).after [.entry e o.got]
  | tag, t, .done code cs refs :: ms =>
    if code = rcSuccess ∨ code = rcNoSuchObject then
      match handleResponse env.reg t cs with
      | (.error e, t) => ⟨[], .raised e, ms, true, t⟩
      | (.ok _, t) => ⟨[], .stop, ms, true, t⟩
    else if code = rcReferral then
      if env.follow then
        match env.fetch refs with
        | (l, some e) => ⟨l, .raised e, ms, true, t⟩
        | (l, none) => { (iterate env tag t ms).after l with done := true }
      else ⟨[], .stop, ms, true, t⟩
    else ⟨[], .raised .ldapError, ms, true, t⟩
  | tag, t, .ref uris cs :: ms =>
    if env.fetchRefs then
      match env.fetch uris with
      | (l, some e) => ⟨l, .raised e, ms, false, t⟩
      | (l, none) => (iterate env tag t ms).after l
    else
      match handleResponse env.reg ⟨env.refOwn, []⟩ cs with
      | (.error e', _) => ⟨[], .raised e', ms, false, t⟩
      | (.ok _, o) => (iterate env tag t ms).after [.ref uris o.got]
  | _, t, .other :: ms => ⟨[], .raised .unexpectedResponse, ms, false, t⟩

/-- `for uri in self.uris: try: return uri.search(...) except LDAPConnectionError`, base.py:1755-1762. `search` is `LDAPURI.search`
(base.py:1708-1720): open a connection, send the search, *unbind*, return the handle. -/
def fetchLoop (search : Str → Except Err Unit) : List Str → Except Err Unit
  | [] => .error .ldapError
  | u :: us =>
    match search u with
    | .ok _ => .ok ()
    | .error .connection => fetchLoop search us
    | .error e => .error e

/-- The constructor of `SearchReferenceHandle` parses every URI (base.py:1746-1750). -/
def parseAll (parse : Str → Except Err Unit) : List Str → Except Err Unit
  | [] => .ok ()
  | u :: us => match parse u with
    | .ok _ => parseAll parse us
    | .error e => .error e

/-- `SearchReferenceHandle(uris, ...).fetch()` and the iteration of the handle it returns: the connection is closed by then (base.py:1719,
533-545), nothing has been received on it for this id, so reading (net.py:337) raises `OSError`. -/
def fetchUris (parse search : Str → Except Err Unit) (uris : List Str) : List (Item E R) × Option Err :=
  match parseAll parse uris with
  | .error e => ([], some e)
  | .ok _ =>
    match fetchLoop search uris with
    | .error e => ([], some e)
    | .ok _ => ([], some .osError)

/-- `utils.get_one_result`, utils.py:174-181 -/
def getOneResult {A : Type} (l : List A) : Except Err A :=
  match l with
  | [] => .error .noResults
  | [x] => .ok x
  | _ => .error .multipleResults

/-- Outcome of a blocking call; `none`: it waits for the server. -/
abbrev Blocking (A : Type) := Option (Except Err A)

/-- `LDAP.get`, base.py:600-603. `sendErr`: building or sending the search raised. -/
def getObj (env : Env V R E) (unbound : Bool) (sendErr : Option Err) (t : Target R) (ms : List (Msg E)) : Blocking (Item E R) :=
  if unbound then some (.error .unbound)
  else match sendErr with
    | some e => some (.error e)
    | none =>
      let o := iterate env none t ms
      match o.ending with
      | .waiting => none
      | .raised e => some (.error e)
      | .stop => some (getOneResult o.yields)

/-- `LDAP.exists`, base.py:612-620 -/
def exists_ (env : Env V R E) (unbound : Bool) (sendErr : Option Err) (t : Target R) (ms : List (Msg E)) : Blocking Bool :=
  match getObj env unbound sendErr t ms with
  | none => none
  | some (.ok _) => some (.ok true)
  | some (.error .noResults) => some (.ok false)
  | some (.error .multipleResults) => some (.ok true)
  | some (.error e) => some (.error e)

/-- A single response: is it of the expected kind, its result code, its controls. -/
structure Resp where
  expected : Bool
  code : Nat
  ctrls : List Wire
  deriving DecidableEq, Repr

/-- `LDAP.compare`, base.py:749-779. `ctrls`: outcome of processing the control keywords; `send`: outcome of `send_message`; second
component: number of requests sent. -/
def compareOp (reg : Reg V R) (own : List Str) (unbound : Bool) (ctrls send : Except Err Unit) (resp : Option Resp) :
    Blocking (Bool × PDict Str R) × Nat :=
  if unbound then (some (.error .unbound), 0)
  else match ctrls with
    | .error e => (some (.error e), 0)
    | .ok _ =>
      match send with
      | .error e => (some (.error e), 0)
      | .ok _ =>
        match resp with
        | none => (none, 1)
        | some r =>
          if !r.expected then (some (.error .unexpectedResponse), 1)
          else if r.code = rcCompareTrue then
            match handleResponse reg ⟨own, []⟩ r.ctrls with
            | (.error e, _) => (some (.error e), 1)
            | (.ok _, t) => (some (.ok (true, t.got)), 1)
          else if r.code = rcCompareFalse then
            match handleResponse reg ⟨own, []⟩ r.ctrls with
            | (.error e, _) => (some (.error e), 1)
            | (.ok _, t) => (some (.ok (false, t.got)), 1)
          else (some (.error .ldapError), 1)

/-- `LDAP._success_result`, base.py:365-383, also the end of `add` (base.py:829-837). -/
def successResult (reg : Reg V R) (own : List Str) (resp : Option Resp) : Blocking (PDict Str R) :=
  match resp with
  | none => none
  | some r =>
    if !r.expected then some (.error .unexpectedResponse)
    else if r.code = rcSuccess then
      match handleResponse reg ⟨own, []⟩ r.ctrls with
      | (.error e, _) => some (.error e)
      | (.ok _, t) => some (.ok t.got)
    else some (.error .ldapError)

/-- Messages for an extended request: intermediate responses, the final response with its code, anything else. -/
inductive XMsg where
  | intermediate (payload : Nat)
  | final (code : Nat) (payload : Nat)
  | other
  deriving DecidableEq, Repr

/-- State of an `ExtendedResponseHandle`: messages to come, `done`. -/
structure XHandle where
  msgs : List XMsg
  requireSuccess : Bool
  done : Bool := false
  deriving DecidableEq, Repr

/-- `_handle_msg(next(self._recvr))` = `recv_response`, base.py:1634-1650, 1657-1658. The payload stands for the message handed out. -/
def XHandle.recv (h : XHandle) : Blocking Nat × XHandle :=
  match h.msgs with
  | [] => (none, h)
  | .intermediate p :: ms => (some (.ok p), { h with msgs := ms })
  | .final c p :: ms =>
    let h := { h with msgs := ms, done := true }
    if h.requireSuccess && c != rcSuccess then (some (.error .ldapError), h) else (some (.ok p), h)
  | .other :: ms => (some (.error .unexpectedResponse), { h with msgs := ms })

/-- `ExtendedResponseHandle.__iter__`, base.py:1652-1656: yields until `done`. -/
def XHandle.iter (req : Bool) : List XMsg → List Nat × Ending × List XMsg
  | [] => ([], .waiting, [])
  | m :: ms =>
    match (XHandle.mk (m :: ms) req false).recv with
    | (none, _) => ([], .waiting, [])
    | (some (.error e), h) => ([], .raised e, h.msgs)
    | (some (.ok p), h) =>
      if h.done then ([p], .stop, h.msgs)
      else let (l, e, r) := XHandle.iter req ms; (p :: l, e, r)

/-- The context-manager part of a handle, base.py:1532-1557: `abandoned`, `done`, and the abandon requests sent for it. -/
structure Handle where
  done : Bool := false
  abandoned : Bool := false
  sent : Nat := 0
  deriving DecidableEq, Repr

/-- `ResponseHandle.abandon`, base.py:1548-1557. `LDAPSocket` has no attribute `abandonedMIDs` (net.py:70 calls it `abandoned_mids`), so
line 1555 raises `AttributeError`. `send`: outcome of `send_message`. -/
def Handle.abandon (h : Handle) (send : Except Err Unit) : Except Err Unit × Handle :=
  if h.abandoned then (.ok (), h)
  else match send with
    | .error e => (.error e, h)
    | .ok _ => (.error .attributeError, { h with abandoned := true, sent := h.sent + 1 })

/-- Leaving the `with` block, base.py:1543-1547: `exc` is the exception in flight; result: the exception that propagates. -/
def Handle.exit (h : Handle) (exc : Option Err) (send : Except Err Unit) : Option Err × Handle :=
  if h.done then (if exc = some .abandon then none else exc, h)
  else match h.abandon send with
    | (.error e, h) => (some e, h)
    | (.ok _, h) => (if exc = some .abandon then none else exc, h)

/-- `SearchResultHandle.__iter__` on a handle that may have been abandoned, base.py:1568-1570. -/
def iterHandle (env : Env V R E) (h : Handle) (t : Target R) (ms : List (Msg E)) : Out E R :=
  if h.abandoned then ⟨[], .stop, ms, h.done, t⟩ else iterate env none t ms

end Laurelin.Search
