import Verif.Model.CaseIgnoreDict
/-!
# Methods of dictionaries and objects that the classes inherit from `dict` (laurelin/ldap/utils.py:124-171, ldapobject.py:64-73)

`CaseIgnoreDict`, `AttrsDict` and `LDAPObject` are `dict`s and override some of its methods. Those below are not overridden, except `__eq__` and `__ne__` of `LDAPObject`. Not modelled: methods that Python got
after the versions the library supports (`|`, `|=`), `fromkeys`, views as live objects.
-/
namespace Laurelin

/-- one method call -/
inductive DictCall (K V : Type) where
  | op (o : DictOp K V)
  | pop (k : K) (dflt : Option V)
  | popitem
  | items

inductive DictRet (K V : Type) where
  | out (o : DictOut V)
  | item (k : K) (v : V)
  | list (l : List (K × V))
  deriving DecidableEq, Repr

namespace CIDict
variable {K V : Type} [DecidableEq K] (lower : K → K)

/-- builtin `dict.pop(k[, default])`: the key as it is spelled; `_keys` (utils.py:127) is not touched -/
def pop (d : CIDict K V) (k : K) (dflt : Option V) : CIDict K V × DictRet K V :=
  match d.data.get? k with
  | some v => ({ d with data := d.data.erase k }, .out (.val v))
  | none =>
    match dflt with
    | some v => (d, .out (.val v))
    | none => (d, .out .keyError)

/-- builtin `dict.popitem()`: the item inserted last; `_keys` (utils.py:127) is not touched -/
def popitem (d : CIDict K V) : CIDict K V × DictRet K V :=
  match d.data.getLast? with
  | some (k, v) => ({ d with data := d.data.dropLast }, .item k v)
  | none => (d, .out .keyError)

/-- the methods of utils.py:124-171, and the inherited ones -/
def callStep (d : CIDict K V) : DictCall K V → CIDict K V × DictRet K V
  | .op o => let r := d.step lower o; (r.1, .out r.2)
  | .pop k dflt => d.pop k dflt
  | .popitem => d.popitem
  | .items => (d, .list d.items)

/-- a history of calls of these (utils.py:124-171) -/
def callRun (d : CIDict K V) : List (DictCall K V) → CIDict K V × List (DictRet K V)
  | [] => (d, [])
  | c :: cs =>
    let r := d.callStep lower c
    let r' := callRun r.1 cs
    (r'.1, r.2 :: r'.2)

/-- builtin `dict.__eq__` on the underlying dicts (`AttrsDict.__eq__`, ldapobject.py:70): as many items, and each of one is in the other -/
def eqv [DecidableEq V] (a b : CIDict K V) : Bool :=
  a.data.length == b.data.length && a.data.all (fun kv => b.data.get? kv.1 == some kv.2)

end CIDict

/-- ldapobject.py:64-70 `LDAPObject.__eq__` for another `LDAPObject`: DNs are compared as strings -/
def objEq {V : Type} [DecidableEq V] (a b : Str × CIDict Str V) : Bool :=
  if a.1 ≠ b.1 then false else CIDict.eqv a.2 b.2

/-- ldapobject.py:72-73 `__ne__` -/
def objNe {V : Type} [DecidableEq V] (a b : Str × CIDict Str V) : Bool := !objEq a b

end Laurelin
