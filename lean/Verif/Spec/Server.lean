import Verif.Model.LdapModify
/-!
RFC 4511 section 4.6: what a directory server does with a modify request. Independent of the client code
(only the wire-level `Change` type is shared).
-/
namespace Laurelin.Spec
variable {V : Type}

/-- an entry: values stored under each folded attribute name; no values = attribute absent -/
abbrev Entry (V : Type) := Str → List V

inductive ServerErr where
  | attributeOrValueExists | noSuchAttribute
  deriving DecidableEq

/-- add the values one by one; a value that is already present is an error -/
def srvAdd (m : V → V → Bool) : List V → List V → Except ServerErr (List V)
  | cur, [] => .ok cur
  | cur, v :: vs => if cur.any (fun x => m x v) then .error .attributeOrValueExists else srvAdd m (cur ++ [v]) vs

/-- delete the (first) stored value matching `v` -/
def dropFirst (p : V → Bool) : List V → List V
  | [] => []
  | x :: xs => if p x then xs else x :: dropFirst p xs

/-- delete the values one by one; a value that is not present is an error -/
def srvDelete (m : V → V → Bool) : List V → List V → Except ServerErr (List V)
  | cur, [] => .ok cur
  | cur, v :: vs =>
    if cur.any (fun x => m x v) then srvDelete m (dropFirst (fun x => m x v) cur) vs
    else .error .noSuchAttribute

def Entry.put (lower : Str → Str) (e : Entry V) (a : Str) (l : List V) : Entry V :=
  fun x => if x = lower a then l else e x

/-- one change: add values; delete values or, with no values, the whole attribute; replace all values (no values:
remove the attribute if it is there) -/
def srvChange [DecidableEq V] (lower : Str → Str) (m : Str → V → V → Bool) (e : Entry V) (c : Change V) :
    Except ServerErr (Entry V) :=
  match c.op with
  | .add => match srvAdd (m c.attr) (e (lower c.attr)) c.vals with
      | .ok l => .ok (e.put lower c.attr l)
      | .error x => .error x
  | .replace => .ok (e.put lower c.attr c.vals)
  | .delete =>
    if c.vals = [] then
      if e (lower c.attr) = [] then .error .noSuchAttribute else .ok (e.put lower c.attr [])
    else match srvDelete (m c.attr) (e (lower c.attr)) c.vals with
      | .ok l => .ok (e.put lower c.attr l)
      | .error x => .error x

/-- the whole request, in order and atomically -/
def srvModify [DecidableEq V] (lower : Str → Str) (m : Str → V → V → Bool) : Entry V → List (Change V) → Except ServerErr (Entry V)
  | e, [] => .ok e
  | e, c :: cs => match srvChange lower m e c with
    | .ok e' => srvModify lower m e' cs
    | .error x => .error x

end Laurelin.Spec
