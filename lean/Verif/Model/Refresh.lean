import Verif.Model.LdapModify
/-!
Reading the server's entry into an object again: `refresh`, `refresh_all`, `refresh_missing`, `has_object_class`
(laurelin/ldap/ldapobject.py:295-341), with the queries they make.
-/
namespace Laurelin.Refresh
open Laurelin
variable {V : Type} [DecidableEq V]

/-- What `LDAP.get` (base.py:584-603) depends on for one object's DN: whether the connection is unbound, whether
`search` refuses a selection before sending anything (base.py:711-714: `@class` without server support, empty name), and
what the search finally yields for a selection: the items of the one object found, or the exception. The search itself is
the subject of C28, C29, C55, C56, C79 and C80. -/
structure Getter (V : Type) where
  unbound : Bool
  refuse : List Str → Option Err
  answer : List Str → Except Err (PDict Str (List V))

/-- What a call did: the attribute selections it asked the server for, the object afterwards, and the result. -/
structure Out (V A : Type) where
  asked : List (List Str)
  obj : AttrsDict V
  result : Except Err A

/-- base.py:601-603 with 707-708: `get(dn, attrs)`; `None` is sent as `['*']`. -/
def Getter.fetch (g : Getter V) (attrs : Option (List Str)) : List (List Str) × Except Err (PDict Str (List V)) :=
  if g.unbound then ([], .error .unbound)
  else
    let sel := match attrs with
      | none => [str "*"]
      | some l => l
    match g.refuse sel with
    | some e => ([], .error e)
    | none => ([sel], g.answer sel)

section
variable (lower : Str → Str) (typeOf : TypeOf V)

/-- ldapobject.py:306-316 `refresh`; `g = none` is an object without connection (ldapobject.py:84-86). -/
def refresh (g : Option (Getter V)) (d : AttrsDict V) (attrs : Option (List Str)) : Out V Unit :=
  match g with
  | none => ⟨[], d, .error .runtimeError⟩
  | some g =>
    let r := g.fetch attrs
    match r.2 with
    | .error e => ⟨r.1, d, .error e⟩
    | .ok got => ⟨r.1, CIDict.update lower d got, .ok ()⟩

/-- ldapobject.py:318-325 `refresh_all`. -/
def refreshAll (g : Option (Getter V)) (d : AttrsDict V) : Out V Unit :=
  match g with
  | none => ⟨[], d, .error .runtimeError⟩
  | some _ => refresh lower g d (some [str "*", str "+"])

/-- ldapobject.py:335-338: the loop collecting the listed attributes that have no value in this object. -/
def missing (d : AttrsDict V) : List Str → List Str
  | [] => []
  | a :: as => if AttrsDict.has lower d a then missing d as else a :: missing d as

/-- ldapobject.py:327-341 `refresh_missing`. -/
def refreshMissing (g : Option (Getter V)) (d : AttrsDict V) (attrs : List Str) : Out V Unit :=
  if (missing lower d attrs).length > 0 then refresh lower g d (some (missing lower d attrs))
  else ⟨[], d, .ok ()⟩

/-- ldapobject.py:295-304 `has_object_class`. The value list's own type name is the stored casing of `objectClass`; registry
lookups ignore case (C32), so it is looked up under that name. -/
def hasObjectClass (g : Option (Getter V)) (d : AttrsDict V) (objectClass : V) : Out V Bool :=
  let r := refreshMissing lower g d [str "objectClass"]
  match r.result with
  | .error e => ⟨r.asked, r.obj, .error e⟩
  | .ok _ =>
    match CIDict.getItem lower r.obj (str "objectClass") with
    | .error e => ⟨r.asked, r.obj, .error e⟩
    | .ok l => ⟨r.asked, r.obj, AttrValueList.contains typeOf (str "objectClass") l objectClass⟩

end
end Laurelin.Refresh
