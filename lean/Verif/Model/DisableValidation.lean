import Verif.Model.Basic
/-!
`LDAP.disable_validation` (laurelin/ldap/base.py:1479-1510) and `DisabledValidationContext`
(laurelin/ldap/validation.py:52-80), with Python's list identity: `ldap.validators` and each context's
`orig_validators` are references into a store of list objects.

A validator is represented by its class name (all that `__enter__` looks at) and an identity.
The `TypeError` for an entry of `disabled_validators` that is neither string nor class is excluded by typing: the
specification is the resulting set of class names.
-/
namespace Laurelin

structure Validator' where
  cls : Str
  uid : Nat
  deriving DecidableEq, Repr

/-- list objects, and which one `ldap.validators` is -/
structure VState where
  store : List (List Validator')
  cur : Nat
  deriving DecidableEq, Repr

/-- validation.py:55-66: a context and the list object it keeps -/
structure VContext where
  orig : Nat
  disabled : List Str
  deriving DecidableEq, Repr

namespace VState

/-- the active validators -/
def active (s : VState) : List Validator' := s.store.getD s.cur []

/-- validation.py:55-66 `__init__`: a fresh empty `orig_validators`. -/
def newContext (s : VState) (disabled : List Str) : VState × VContext :=
  ({ s with store := s.store ++ [[]] }, ⟨s.store.length, disabled⟩)

/-- validation.py:70-76: the `for` loop of `__enter__` over the list object `cur`, appending to the list object `orig`.
Python iterates by index and re-reads the length, so the loop sees appended elements when the two are the same
object. `none` = still running when the fuel is used up. -/
def enterLoop (cur orig : Nat) (disabled : List Str) :
    Nat → List (List Validator') → Nat → List Validator' → Option (List (List Validator') × List Validator')
  | 0, _, _, _ => none
  | fuel + 1, store, i, new =>
    match (store.getD cur [])[i]? with
    | none => some (store, new)
    | some v =>
      let store' := store.set orig (store.getD orig [] ++ [v])
      let new' := if disabled = [] then new else if v.cls ∈ disabled then new else new ++ [v]
      enterLoop cur orig disabled fuel store' (i + 1) new'

/-- validation.py:68-77 `__enter__` with enough fuel for a list that does not grow while it is iterated. -/
def enter (s : VState) (c : VContext) : Option VState :=
  match enterLoop s.cur c.orig c.disabled (s.active.length + 1) s.store 0 [] with
  | none => none
  | some (store, new) => some ⟨store ++ [new], store.length⟩

/-- validation.py:79-80 `__exit__`: returns `None`, so exceptions propagate. -/
def exit (s : VState) (c : VContext) : VState := { s with cur := c.orig }

end VState

/-- what user code does with validation: look (perform a validated operation), raise, sequence, and
`with ldap.disable_validation(names): body` -/
inductive VProg where
  | operation
  | raise
  | seq (a b : VProg)
  | disabled (names : List Str) (body : VProg)

/-- what a run shows: the validators active at each operation, and whether an exception escaped -/
structure VOut where
  seen : List (List Validator')
  raised : Bool
  deriving DecidableEq, Repr

/-- Python's execution of such code; `none` = a loop that does not end. -/
def VProg.exec : VProg → VState → Option (VState × VOut)
  | .operation, s => some (s, ⟨[s.active], false⟩)
  | .raise, s => some (s, ⟨[], true⟩)
  | .seq a b, s =>
    match a.exec s with
    | none => none
    | some (s1, o1) =>
      if o1.raised then some (s1, o1)
      else match b.exec s1 with
        | none => none
        | some (s2, o2) => some (s2, ⟨o1.seen ++ o2.seen, o2.raised⟩)
  | .disabled names body, s =>
    let (s1, c) := s.newContext names
    match s1.enter c with
    | none => none
    | some s2 =>
      match body.exec s2 with
      | none => none
      | some (s3, o) => some (s3.exit c, o)

end Laurelin
