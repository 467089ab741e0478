import Verif.Model.Basic
import Verif.Model.Strings
/-!
# Registering the schema elements and controls of extensions (laurelin/ldap/extensible/registration.py)

`E`: elements (rule classes, control classes, object classes, attribute types). `S`: the registries they end up in; `reg` is their `register`
(objectclass.py, attributetype.py, rules.py: Model/Schema.lean; controls.py: Model/Controls.lean), which may refuse.
`log` is a ghost: the elements whose `register` was called, in order.
-/
namespace Laurelin
namespace Registration
variable {E S : Type}

/-- An attribute of a class body: something `MetaLaurelinTransiter` recognizes (registration.py:29-32), or not. -/
inductive AttrVal (E : Type) where
  | element (e : E)
  | other
  deriving DecidableEq, Repr

/-- registration.py:12-13: `_preregistered_elements`, `_registered_mods` (and the registries) -/
structure RState (E S : Type) where
  pre : PDict Str (List E)
  done : List Str
  log : List E
  reg : S

/-- registration.py:25-40: one attribute of the class body -/
def preregister1 (modname : Str) (pre : PDict Str (List E)) (av : Str × AttrVal E) : PDict Str (List E) :=
  if startsWith av.1 (str "_") then pre
  else
    match av.2 with
    | .other => pre
    | .element e => pre.set modname ((pre.get? modname).getD [] ++ [e])

/-- registration.py:21-42 `MetaLaurelinTransiter.__new__`: a class is defined in module `modname` -/
def defineClass (st : RState E S) (modname : Str) (dct : List (Str × AttrVal E)) : RState E S :=
  { st with pre := dct.foldl (preregister1 modname) st.pre }

/-- registration.py:85-86: `for obj in elements: obj.register()` -/
def registerAll (register : S → E → Except Err S) (st : RState E S) : List E → Except Err Unit × RState E S
  | [] => (.ok (), st)
  | e :: es =>
    let st := { st with log := st.log ++ [e] }
    match register st.reg e with
    | .error x => (.error x, st)
    | .ok s => registerAll register { st with reg := s } es

/-- registration.py:79-87: the loop of `require` -/
def requireLoop (register : S → E → Except Err S) (m : Str) (st : RState E S) : PDict Str (List E) → Except Err Unit × RState E S
  | [] => (.ok (), st)
  | (k, es) :: rest =>
    if k ∈ st.done then requireLoop register m st rest
    else if k = m ∨ startsWith k (m ++ str ".") = true then
      match registerAll register st es with
      | (.error x, st) => (.error x, st)
      | (.ok (), st) => requireLoop register m { st with done := if m ∈ st.done then st.done else st.done ++ [m] } rest
    else requireLoop register m st rest

/-- registration.py:71-87 `LaurelinRegistrar.require` -/
def requireMod (register : S → E → Except Err S) (m : Str) (st : RState E S) : Except Err Unit × RState E S :=
  if m ∈ st.done then (.ok (), st) else requireLoop register m st st.pre

/-- any number of `require` calls, their exceptions caught -/
def requireAll (register : S → E → Except Err S) (st : RState E S) (ms : List Str) : RState E S :=
  ms.foldl (fun st m => (requireMod register m st).2) st

end Registration
end Laurelin
