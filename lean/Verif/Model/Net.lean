import Verif.Model.Basic
/-!
# Receiving messages (laurelin/ldap/net.py 303-374)

The BER codec is a parameter (`Codec`): `dec` is `ber_decode(raw, asn1Spec=LDAPMessage())`, `none` stands for
`SubstrateUnderrunError`.  Its laws say that it is a prefix code: complete messages are decoded with the
rest returned untouched, and a strict prefix of a message is reported as an underrun.

The socket is the list of chunks that successive `recv` calls will return (after SASL unwrapping).
A generator is a state machine whose phase records at which `yield` it is suspended.
-/
namespace Laurelin.Net

/-- A self-delimiting message codec over bytes `B` (pyasn1's BER codec for `LDAPMessage`; not modelled). -/
structure Codec (B M : Type) where
  enc : M → List B
  dec : List B → Option (M × List B)
  mid : M → Nat
  enc_ne : ∀ m, enc m ≠ []
  dec_enc : ∀ m r, dec (enc m ++ r) = some (m, r)
  dec_short : ∀ m p q, q ≠ [] → enc m = p ++ q → dec p = none

/-- The part of `LDAPSocket` that receiving uses: `_message_queues` (net.py:69; every `deque` carries an
identity, because a generator keeps a reference to one), the bytes still to be received, `abandoned_mids`. -/
structure Sock (B M : Type) where
  chunks : List (List B)
  queues : Nat → Option (Nat × List M)
  fresh : Nat
  abandoned : List Nat

/-- Where a `recv_messages` generator is suspended. -/
inductive Phase (B : Type) where
  /-- at the head of the outer loop (`net.py:321`), `raw` held -/
  | top (raw : List B)
  /-- at the `yield obj` of the queue flush (`net.py:331`), with the local `q` being the queue of that identity -/
  | flushing (gen : Nat) (raw : List B)
  /-- at the `yield response` of the decode loop (`net.py:345`) -/
  | decoding (raw : List B)
  /-- blocked in `recv` (line 337) with nothing more to come -/
  | waiting (raw : List B)
  /-- returned or raised -/
  | finished
  deriving Repr, DecidableEq

/-- The bytes a suspended generator holds in its local variable `raw`. -/
def Phase.raw {B : Type} : Phase B → List B
  | .top r => r
  | .flushing _ r => r
  | .decoding r => r
  | .waiting r => r
  | .finished => []

/-- What `next(generator)` does. `blocked` = waits in `recv` and nothing more arrives. -/
inductive Out (M : Type) where
  | yields (m : M)
  | stop
  | unsolicited (m : M)
  | blocked
  deriving Repr, DecidableEq

variable {B M : Type}

/-- Append to the queue of an id, creating it if absent. net.py:369-371 -/
def Sock.enqueue (s : Sock B M) (i : Nat) (m : M) : Sock B M :=
  match s.queues i with
  | some (g, q) => { s with queues := fun j => if j = i then some (g, q ++ [m]) else s.queues j }
  | none => { s with queues := (fun j => if j = i then some (s.fresh, [m]) else s.queues j), fresh := s.fresh + 1 }

/-- One round of the flush loop on the queue stored for `i`: `popleft`, and `del` of the dict entry when that
empties it. `none`: there is nothing to pop. net.py:325-331 -/
def Sock.pop (s : Sock B M) (i : Nat) : Option (M × Nat × Sock B M) :=
  match s.queues i with
  | some (g, m :: q) =>
    some (m, g, { s with queues := fun j => if j = i then (if q = [] then none else some (g, q)) else s.queues j })
  | _ => none

/-- Result of the decode loop. -/
inductive Dec (B M : Type) where
  | yields (m : M) (raw : List B) (s : Sock B M)
  | unsolicited (m : M) (s : Sock B M)
  /-- `raw` is empty: the outer loop goes round with `flush_queue = True` -/
  | drained (s : Sock B M)
  /-- `SubstrateUnderrunError`: the outer loop goes round with `flush_queue = False` -/
  | underrun (raw : List B) (s : Sock B M)

/-- The `while len(raw) > 0` loop, net.py:341-371. The fuel bounds the number of messages in `raw`;
callers pass its length, and every message has at least one byte. -/
def decodeLoop (C : Codec B M) (want : Nat) : Nat → List B → Sock B M → Dec B M
  | _, [], s => .drained s
  | 0, raw, s => .underrun raw s
  | n + 1, raw, s =>
    match C.dec raw with
    | none => .underrun raw s
    | some (m, raw') =>
      if C.mid m = want then .yields m raw' s
      else if C.mid m = 0 then .unsolicited m s
      else decodeLoop C want n raw' (s.enqueue (C.mid m) m)

/-- The outer loop, net.py:320-374. `flush = true` enters at its head with `flush_queue = True`, `flush = false`
enters at the `abandoned_mids` check (line 334), which is where the flush loop breaks to and where an underrun
leads.  `cs` is what is left to receive. -/
def outer (C : Codec B M) (want : Nat) (flush : Bool) (raw : List B) (s : Sock B M) : List (List B) → Out M × Phase B × Sock B M
  | [] =>
    match (if flush then s.pop want else none) with
    | some (m, g, s') => (.yields m, .flushing g raw, { s' with chunks := [] })
    | none =>
      if want ∈ s.abandoned then (.stop, .finished, { s with chunks := [] })
      else (.blocked, .waiting raw, { s with chunks := [] })
  | c :: cs =>
    match (if flush then s.pop want else none) with
    | some (m, g, s') => (.yields m, .flushing g raw, { s' with chunks := c :: cs })
    | none =>
      if want ∈ s.abandoned then (.stop, .finished, { s with chunks := c :: cs })
      else
        match decodeLoop C want (raw ++ c).length (raw ++ c) s with
        | .yields m raw' s' => (.yields m, .decoding raw', { s' with chunks := cs })
        | .unsolicited m s' => (.unsolicited m, .finished, { s' with chunks := cs })
        | .drained s' => outer C want true [] s' cs
        | .underrun raw' s' => outer C want false raw' s' cs

/-- `next(generator)` for a generator of `recv_messages(want)` suspended at the given phase. net.py:312-374 -/
def next (C : Codec B M) (want : Nat) (p : Phase B) (s : Sock B M) : Out M × Phase B × Sock B M :=
  match p with
  | .finished => (.stop, .finished, s)
  | .waiting raw => (.blocked, .waiting raw, s)
  | .top raw => outer C want true raw s s.chunks
  | .flushing g raw =>
    -- the flush loop goes on with the `deque` it has a reference to; once that one left the dict it is empty
    match s.queues want with
    | some (g', _) => if g' = g then outer C want true raw s s.chunks else outer C want false raw s s.chunks
    | none => outer C want false raw s s.chunks
  | .decoding raw =>
    match decodeLoop C want raw.length raw s with
    | .yields m raw' s' => (.yields m, .decoding raw', s')
    | .unsolicited m s' => (.unsolicited m, .finished, s')
    | .drained s' => outer C want true [] s' s'.chunks
    | .underrun raw' s' => outer C want false raw' s' s'.chunks

/-- Several generators on one socket. -/
structure World (B M : Type) where
  sock : Sock B M
  readers : List (Nat × Phase B)

/-- A fresh socket on which the given chunks will arrive. net.py:62-78 -/
def World.init (chunks : List (List B)) : World B M := ⟨⟨chunks, fun _ => none, 0, []⟩, []⟩

/-- `recv_messages(want)` creates a generator; `next` of the reader with that index advances it. -/
inductive Ev where
  | «open» (want : Nat)
  | advance (i : Nat)
  deriving Repr, DecidableEq

/-- One event: the new world and, for `advance`, the id asked for and what came out. -/
def World.step (C : Codec B M) (w : World B M) : Ev → World B M × List (Nat × Out M)
  | .open want => ({ w with readers := w.readers ++ [(want, .top [])] }, [])
  | .advance i =>
    match w.readers[i]? with
    | none => (w, [])
    | some (want, p) =>
      let (o, p', s') := next C want p w.sock
      (⟨s', w.readers.set i (want, p')⟩, [(want, o)])

/-- A history of events: the final world and everything that came out, in order. -/
def World.run (C : Codec B M) : World B M → List Ev → World B M × List (Nat × Out M)
  | w, [] => (w, [])
  | w, e :: es => let (w', o) := w.step C e; let (w'', os) := run C w' es; (w'', o ++ os)

/-- `recv_one(want)`: `next` of a new generator that is then dropped. net.py:303-310 -/
def recvOne (C : Codec B M) (want : Nat) (s : Sock B M) : Out M × Sock B M :=
  let (o, _, s') := next C want (.top []) s
  (o, s')

end Laurelin.Net
