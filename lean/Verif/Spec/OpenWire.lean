import Verif.Spec.Directory
/-!
Specification: opening a connection (RFC 4512 5.1): the request for the root DSE, and what the client may take from the answer.
-/
namespace Laurelin.Spec.OpenS
open Laurelin Codec Wire DirectoryS

/-- the request for attributes of the root DSE: the entry with the empty DN only, two entries at most, names and values -/
def rootOp (deref time : Nat) (attrs : List Str) : Op := .searchRequest [] 0 deref 2 time false (.present (utf8Enc (str "objectClass"))) (attrs.map utf8Enc)

/-- this request, with the options of the connection, for all user and operational attributes -/
def RootRequest {V R : Type} (conn : SearchConn V R) (op : Op) : Prop := op = rootOp conn.dfltDeref conn.dfltTimeout [str "*", str "+"]

/-- no attribute twice, in whatever casing -/
def Distinct (lower : Str → Str) (e : Found) : Prop := (e.2.map (fun p => lower p.1)).Nodup

/-- the values sent for an attribute, in whatever casing -/
def sent (lower : Str → Str) (e : Found) (name : Str) : List Bytes := (e.2.filter (fun p => decide (lower p.1 = lower name))).flatMap Prod.snd

/-- EXTERNAL on a local socket if no mechanism is given -/
inductive MechOf (uri : Str) (given : Option Str) : Option Str → Prop where
  | given (m : Str) : given = some m → MechOf uri given (some m)
  | local_ (rest : Str) : given = none → uri = str "ldapi:" ++ rest → MechOf uri given (some (str "EXTERNAL"))
  | none : given = none → (¬ ∃ rest, uri = str "ldapi:" ++ rest) → MechOf uri given none

end Laurelin.Spec.OpenS
