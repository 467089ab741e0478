import Verif.Model.Attrs
/-! Modify operations and smart modlists (laurelin/ldap/modify.py). -/
namespace Laurelin

/-- modify.py:12-14 the three operations. -/
inductive ModOp where
  | add | replace | delete
  deriving DecidableEq, Repr

/-- The values argument of a `Mod`: a list, or the `DELETE_ALL` sentinel (constants.py:42-57). -/
inductive Vals (V : Type) where
  | deleteAll
  | list (l : List V)
  deriving DecidableEq, Repr

namespace Vals
variable {V : Type}
/-- `len(vals)`; constants.py:50-51 gives 0 for `DELETE_ALL`. -/
def len : Vals V → Nat
  | deleteAll => 0
  | list l => l.length
/-- `bool(vals)`; constants.py:44-48. -/
def truthy : Vals V → Bool
  | deleteAll => false
  | list l => !l.isEmpty
/-- `for v in vals`: `DELETE_ALL` defines neither `__iter__` nor `__getitem__`, so iterating it is a `TypeError`. -/
def iter : Vals V → Except Err (List V)
  | deleteAll => .error .typeError
  | list l => .ok l
end Vals

/-- The raw argument accepted by `Mod(...)`: modify.py:43-44 wraps anything that is neither a list nor
`DELETE_ALL` into a one-element list. -/
inductive RawVals (V : Type) where
  | scalar (v : V)
  | vals (vs : Vals V)

/-- modify.py:47-49 the attributes of a `Mod`. -/
structure Mod (V : Type) where
  op : ModOp
  attr : Str
  vals : Vals V
  deriving DecidableEq, Repr

variable {V : Type} [DecidableEq V]

/-- modify.py:40-49 `Mod.__init__` (`op` is one of the three by typing). -/
def Mod.mk' (op : ModOp) (attr : Str) (raw : RawVals V) : Except Err (Mod V) :=
  let vals := match raw with
    | .scalar v => Vals.list [v]
    | .vals vs => vs
  if op = .add ∧ vals.len = 0 then .error .valueError
  else .ok ⟨op, attr, vals⟩

/-- modify.py:78-86 `Modlist`. The items are those of the dictionary in iteration order. -/
def modlist (op : ModOp) : List (Str × RawVals V) → Except Err (List (Mod V))
  | [] => .ok []
  | (attr, vals) :: rest =>
    match Mod.mk' op attr vals with
    | .error e => .error e
    | .ok m =>
      match modlist op rest with
      | .error e => .error e
      | .ok ms => .ok (m :: ms)

section smart
variable (lower : Str → Str) (typeOf : TypeOf V)

/-- `add_attrs.setdefault(attr, []).append(val)` as written in modify.py:109-111, on the local plain dict. -/
def appendTo (acc : PDict Str (Vals V)) (attr : Str) (v : V) : PDict Str (Vals V) :=
  let acc := match acc.get? attr with
    | none => acc.set attr (.list [])
    | some _ => acc
  match acc.get? attr with
  | some (.list l) => acc.set attr (.list (l ++ [v]))
  | _ => acc

/-- modify.py:103-111: the inner loop of `AddModlist` over the requested values of one attribute. -/
def addLoop (t : AttrType V) (cur : List V) (attr : Str) :
    PDict Str (Vals V) → List V → Except Err (PDict Str (Vals V))
  | acc, [] => .ok acc
  | acc, v :: vs =>
    match t.index cur v with
    | .ok _ => addLoop t cur attr acc vs
    | .error .valueError => addLoop t cur attr (appendTo acc attr v) vs
    | .error e => .error e

/-- modify.py:100-113: the outer loop of `AddModlist`. `cur_attrs` is an `AttrsDict`/`LDAPObject`. -/
def addOuter (cur : AttrsDict V) :
    PDict Str (Vals V) → List (Str × Vals V) → Except Err (PDict Str (Vals V))
  | acc, [] => .ok acc
  | acc, (attr, vals) :: rest =>
    if AttrsDict.has lower cur attr then
      match typeOf attr with
      | .error e => .error e
      | .ok t =>
        match vals.iter with
        | .error e => .error e
        | .ok vs =>
          match addLoop t (AttrsDict.getAttr lower cur attr) attr acc vs with
          | .error e => .error e
          | .ok acc' => addOuter cur acc' rest
    else addOuter cur (acc.set attr vals) rest

/-- modify.py:92-114 `AddModlist`. -/
def addModlist (cur : AttrsDict V) (new : List (Str × Vals V)) : Except Err (List (Mod V)) :=
  match addOuter lower typeOf cur [] new with
  | .error e => .error e
  | .ok acc => modlist .add (acc.map (fun kv => (kv.1, .vals kv.2)))

/-- modify.py:131-140: the inner loop of `DeleteModlist`. -/
def delLoop (t : AttrType V) (cur : List V) (attr : Str) :
    PDict Str (Vals V) → List V → Except Err (PDict Str (Vals V))
  | acc, [] => .ok acc
  | acc, v :: vs =>
    match t.index cur v with
    | .ok _ => delLoop t cur attr (appendTo acc attr v) vs
    | .error .valueError => delLoop t cur attr acc vs
    | .error e => .error e

/-- modify.py:125-140: the outer loop of `DeleteModlist`. -/
def delOuter (cur : AttrsDict V) :
    PDict Str (Vals V) → List (Str × Vals V) → Except Err (PDict Str (Vals V))
  | acc, [] => .ok acc
  | acc, (attr, vals) :: rest =>
    if AttrsDict.has lower cur attr then
      if vals.truthy then
        match typeOf attr with
        | .error e => .error e
        | .ok t =>
          match vals.iter with
          | .error e => .error e
          | .ok vs =>
            match delLoop t (AttrsDict.getAttr lower cur attr) attr acc vs with
            | .error e => .error e
            | .ok acc' => delOuter cur acc' rest
      else delOuter cur (acc.set attr vals) rest
    else delOuter cur acc rest

/-- modify.py:117-141 `DeleteModlist`. -/
def deleteModlist (cur : AttrsDict V) (del : List (Str × Vals V)) : Except Err (List (Mod V)) :=
  match delOuter lower typeOf cur [] del with
  | .error e => .error e
  | .ok acc => modlist .delete (acc.map (fun kv => (kv.1, .vals kv.2)))

end smart
end Laurelin
