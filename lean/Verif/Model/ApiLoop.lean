import Verif.Model.Api
/-!
# Calls made while the results of a search are iterated (laurelin/ldap/base.py 1567-1621, net.py 303-374)

`for item in conn.search(...): ...` where the loop makes other calls on the same connection and may be left early. The iteration holds a generator of the socket (`Model/Net.lean`) that is suspended while the loop
makes its calls; each call is as in `Model/Api.lean`. Simplifications: those of `Model/Api.lean`; an exception of a call in the loop is caught, or else ends the loop (`leave`); no second loop inside the loop
(`list(conn.search(...))` is a call).
-/
namespace Laurelin
namespace Api
open Codec Asn1 Rfc4511 OverWire

/-- a call and how it ended -/
abbrev Made (V R : Type) := (Env V R × Call V) × Except Err (Ret R)

/-- The body of a loop over search results: for an item, what is called one after the other, each in view of what the calls of the loop have returned so far (`none`: nothing), and whether the loop is then left
(`break`, or an exception that is not caught). -/
structure Body (V R : Type) where
  calls : Search.Item Received.Entry R → List (List (Made V R) → Option (Env V R × Call V))
  leave : List (Made V R) → Search.Item Received.Entry R → Bool

/-- how a loop ended: by itself, left by its body, by an exception of the iteration; or it has not after the number of messages given -/
inductive Ended where
  | stop
  | left
  | raised (e : Err)
  | running
  deriving DecidableEq, Repr

/-- the connection after a loop, the items its body was run with, the calls it made, how it ended -/
structure Looped (V R M S : Type) where
  link : Link M S
  items : List (Search.Item Received.Entry R)
  made : List (Made V R)
  ended : Ended

section
variable {V R M S : Type} (C : Net.Codec UInt8 M) (view : M → Val) (peer : Peer S)

/-- the calls of the body for one item -/
def runCalls (l : Link M S) (made : List (Made V R)) : List (List (Made V R) → Option (Env V R × Call V)) → Link M S × List (Made V R)
  | [] => (l, made)
  | f :: fs =>
    match f made with
    | none => runCalls l made fs
    | some ec =>
      let r := call C view peer ec.1 l ec.2
      runCalls r.1 (made ++ [(ec, r.2)]) fs

/-- the body for the items that one message yields: the connection, the items it was run with, the calls made so far, whether it has left the loop -/
def runBody (body : Body V R) (l : Link M S) (made : List (Made V R)) : List (Search.Item Received.Entry R) → Link M S × List (Search.Item Received.Entry R) × List (Made V R) × Bool
  | [] => (l, [], made, false)
  | i :: is =>
    let r := runCalls C view peer l made (body.calls i)
    if body.leave r.2 i then (r.1, [i], r.2, true)
    else
      let q := runBody body r.1 r.2 is
      (q.1, i :: q.2.1, q.2.2.1, q.2.2.2)

/-- The loop, base.py:1571-1621 with the generator of the socket (net.py:312-374) at its phase; `tag` and `reserved` as in `Model/Api.lean`. The first argument bounds the number of messages. -/
def loop (want : Nat) (senv : Search.Env V R Received.Entry) (own : List Str) (reserved : Bool) (body : Body V R) : Nat → Option Bool → Net.Phase UInt8 → Link M S → List (Made V R) → Looped V R M S
  | 0, _, _, l, made => ⟨l, [], made, .running⟩
  | n + 1, tag, ph, l, made =>
    match Net.next C want ph l.st.sock with
    | (.stop, _, s) => ⟨⟨{ l.st with sock := s }, l.peer⟩, [], made, .raised .osError⟩
    | (.unsolicited _, _, s) => ⟨⟨{ l.st with sock := s }, l.peer⟩, [], made, .raised .unsolicited⟩
    | (.blocked, _, s) => ⟨⟨{ l.st with sock := s }, l.peer⟩, [], made, .raised .osError⟩
    | (.yields m, ph', s) =>
      match Received.searchMsg (view m) with
      | none => ⟨⟨{ l.st with sock := s }, l.peer⟩, [], made, .raised .ldapUnicode⟩
      | some x =>
        if reserved && isEntry x then ⟨⟨{ l.st with sock := s }, l.peer⟩, [], made, .raised .typeError⟩
        else
          let o := Search.iterate senv tag ⟨own, []⟩ [x]
          let b := runBody C view peer body ⟨{ l.st with sock := s }, l.peer⟩ made o.yields
          if b.2.2.2 then ⟨b.1, b.2.1, b.2.2.1, .left⟩
          else match o.ending with
            | .raised e => ⟨b.1, b.2.1, b.2.2.1, .raised e⟩
            | .stop => ⟨b.1, b.2.1, b.2.2.1, .stop⟩
            | .waiting =>
              let r := loop want senv own reserved body n (if isEntry x then tag.map (fun _ => true) else tag) ph' b.1 b.2.2.1
              { r with items := b.2.1 ++ r.items }

/-- `for item in self.search(...): ...`, base.py:622-736 and 1567-1621 -/
def searchLoop (env : Env V R) (fuel : Nat) (l : Link M S) (a : SearchArgs V) (body : Body V R) : Looped V R M S :=
  match ldapSearch env.conn a with
  | .error e => ⟨l, [], [], .raised e⟩
  | .ok sent =>
    match send l.st.next (Rfc4511.Call.search sent.req).op sent.ctrls with
    | none => ⟨⟨{ l.st with next := l.st.next + 1 }, l.peer⟩, [], [], .raised .asn1Error⟩
    | some bs =>
      let p := peer l.peer bs
      loop C view peer l.st.next { env.results with fetchRefs := sent.fetchRefs, follow := sent.follow } env.handleOwn (reservedKwd sent.objKwds) body fuel
        (if sent.objKwds.any (fun kv => decide (kv.1 = str "tag")) then some env.tagUsed else none) (.top [])
        ⟨⟨l.st.next + 1, { l.st.sock with chunks := l.st.sock.chunks ++ p.2 }⟩, p.1⟩ []

/-- what a program does with a connection: a call, or a loop over the results of a search -/
inductive Step (V R : Type) where
  | call (env : Env V R) (c : Call V)
  | loop (env : Env V R) (fuel : Nat) (a : SearchArgs V) (body : Body V R)

/-- the search of a loop, taken as a call: what it found if the loop ended by itself, the exception if the iteration raised; of a loop that was left nothing is said -/
def asCall {M S : Type} (env : Env V R) (a : SearchArgs V) (r : Looped V R M S) : List (Made V R) :=
  match r.ended with
  | .stop => [((env, .search a), .ok (.found r.items))]
  | .raised e => [((env, .search a), .error e)]
  | .left => []
  | .running => []

/-- one step: the connection, and the calls made; the search of a loop comes before the calls of its body -/
def step (l : Link M S) : Step V R → Link M S × List (Made V R)
  | .call env c =>
    let r := call C view peer env l c
    (r.1, [((env, c), r.2)])
  | .loop env fuel a body =>
    let r := searchLoop C view peer env fuel l a body
    (r.link, asCall env a r ++ r.made)

/-- calls and loops one after the other -/
def runSteps (l : Link M S) : List (Step V R) → Link M S × List (Made V R)
  | [] => (l, [])
  | s :: ss =>
    let r := step C view peer l s
    let q := runSteps r.1 ss
    (q.1, r.2 ++ q.2)

end
end Api
end Laurelin
