import Verif.Model.Basic
/-!
`CaseIgnoreDict` (laurelin/ldap/utils.py:124-171).

`lower` (Python's `str.lower`) is a parameter: nothing below depends on what it does.
Inherited builtin methods that the class does not override (`pop`, `popitem`, `copy`, ...) are not
modelled.
-/
namespace Laurelin

/-- utils.py:124-129: the object is a `dict` (`data`) plus the `_keys` dictionary that maps the
lower-cased key to the casing used last. -/
structure CIDict (K V : Type) where
  keys : PDict K K
  data : PDict K V
  deriving Repr, DecidableEq

namespace CIDict
variable {K V : Type} [DecidableEq K] (lower : K → K)

/-- utils.py:126-127 `__init__` without a plain dict. -/
def empty : CIDict K V := ⟨[], []⟩

/-- utils.py:131-133 `__setitem__`. -/
def setItem (d : CIDict K V) (k : K) (v : V) : CIDict K V :=
  { keys := d.keys.set (lower k) k, data := d.data.set k v }

/-- utils.py:142-144 `__getitem__`; both lookups raise `KeyError`. -/
def getItem (d : CIDict K V) (k : K) : Except Err V :=
  match d.keys.get? (lower k) with
  | none => .error .keyError
  | some k' =>
    match d.data.get? k' with
    | none => .error .keyError
    | some v => .ok v

/-- utils.py:135-140 `setdefault`. -/
def setDefault (d : CIDict K V) (k : K) (dflt : V) : CIDict K V × V :=
  match d.getItem lower k with
  | .ok v => (d, v)
  | .error _ => (d.setItem lower k dflt, dflt)

/-- utils.py:146-150 `get` with `default=None`. -/
def get (d : CIDict K V) (k : K) : Option V :=
  match d.getItem lower k with
  | .ok v => some v
  | .error _ => none

/-- utils.py:152-157 `__contains__`. -/
def contains (d : CIDict K V) (k : K) : Bool :=
  match d.getItem lower k with
  | .ok _ => true
  | .error _ => false

/-- utils.py:159-161 `update(other)` for a plain `dict` argument. -/
def update (d : CIDict K V) (other : PDict K V) : CIDict K V :=
  other.foldl (fun acc kv => acc.setItem lower kv.1 kv.2) d

/-- utils.py:159-161 `update(other)` when `other` is itself a `CaseIgnoreDict`: iteration runs over the
underlying `dict`, while `other[key]` is the case-insensitive lookup. -/
def updateCI (d : CIDict K V) (other : CIDict K V) : Except Err (CIDict K V) :=
  other.data.foldlM (fun acc kv => do
    let v ← other.getItem lower kv.1
    pure (acc.setItem lower kv.1 v)) d

/-- utils.py:163-167 `__delitem__`; on `KeyError` nothing has been changed: if `_keys` lacks the key the
first statement raises, and if `data` lacks it `dict.__delitem__` raises before `_keys` is touched. -/
def delItem (d : CIDict K V) (k : K) : Except Err (CIDict K V) :=
  match d.keys.get? (lower k) with
  | none => .error .keyError
  | some k' =>
    match d.data.get? k' with
    | none => .error .keyError
    | some _ => .ok { keys := d.keys.erase (lower k), data := d.data.erase k' }

/-- utils.py:169-171 `clear`. -/
def clear (_ : CIDict K V) : CIDict K V := empty

/-- builtin `dict.items()` (not overridden): iteration runs over the underlying dict. -/
def items (d : CIDict K V) : List (K × V) := d.data

/-- builtin `len(d)` -/
def len (d : CIDict K V) : Nat := d.data.length

end CIDict

/-- One public operation on a case-insensitive dictionary. -/
inductive DictOp (K V : Type) where
  | set (k : K) (v : V)
  | del (k : K)
  | setdefault (k : K) (v : V)
  | update (kvs : List (K × V))
  | clear
  | get (k : K)

/-- What the caller sees. -/
inductive DictOut (V : Type) where
  | unit
  | val (v : V)
  | keyError
  deriving DecidableEq, Repr

namespace CIDict
variable {K V : Type} [DecidableEq K] (lower : K → K)

/-- Dispatch of one operation onto the methods above. -/
def step (d : CIDict K V) : DictOp K V → CIDict K V × DictOut V
  | .set k v => (d.setItem lower k v, .unit)
  | .del k => match d.delItem lower k with
      | .ok d' => (d', .unit)
      | .error _ => (d, .keyError)
  | .setdefault k v => let r := d.setDefault lower k v; (r.1, .val r.2)
  | .update kvs => (d.update lower kvs, .unit)
  | .clear => (d.clear, .unit)
  | .get k => match d.getItem lower k with
      | .ok v => (d, .val v)
      | .error _ => (d, .keyError)

/-- A whole history, with the outputs in order. -/
def run (d : CIDict K V) : List (DictOp K V) → CIDict K V × List (DictOut V)
  | [] => (d, [])
  | op :: ops =>
    let r := d.step lower op
    let r' := run r.1 ops
    (r'.1, r.2 :: r'.2)

end CIDict
end Laurelin
