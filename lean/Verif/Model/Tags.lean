import Verif.Model.Basic
/-!
# Tagged objects (laurelin/ldap/base.py 547-582)

Objects are represented by the number of their creation. `LDAPObject.obj` (ldapobject.py:114-134), `search` and `add` create objects
through the same method with a `tag` keyword.
-/
namespace Laurelin.Tags

/-- `LDAP._tagged_objects` (base.py:288) and the number of objects built so far. -/
structure St where
  tagged : PDict Str Nat := []
  count : Nat := 0
  deriving DecidableEq, Repr

/-- `LDAP.obj(dn, attrs, tag)`: the object is built first, then the tag is checked. base.py:575-582 -/
def St.obj (st : St) (tag : Option Str) : Except Err Nat × St :=
  let o := st.count
  let st := { st with count := st.count + 1 }
  match tag with
  | none => (.ok o, st)
  | some t =>
    match st.tagged.get? t with
    | some _ => (.error .tagError, st)
    | none => (.ok o, { st with tagged := st.tagged.set t o })

/-- `LDAP.tag(t)`. base.py:547-558 -/
def St.tag (st : St) (t : Str) : Except Err Nat :=
  match st.tagged.get? t with
  | some o => .ok o
  | none => .error .tagError

/-- A history of object creations, each with or without a tag; the outcomes and the final state. -/
def St.run : St → List (Option Str) → List (Except Err Nat) × St
  | st, [] => ([], st)
  | st, t :: ts => let (r, st) := st.obj t; let (rs, st) := run st ts; (r :: rs, st)

end Laurelin.Tags
