import Verif.Model.LdapModify
import Verif.Model.Strings
/-!
# Structured descriptions (laurelin/extensions/descattrs.py)

Lists are values here: `_dict_mod_add` stores the caller's list object itself, so a caller that later changes that list, or passes one list for
two keys, shares it with the extension; this is not modelled. The iteration order of the Python `set` of unstructured descriptions is the
parameter `order`.
-/
namespace Laurelin
namespace DescAttrs
variable (lower : Str → Str)

/-- descattrs.py:55-66: `_desc_dict` and `_unstructured_desc` -/
structure Desc where
  dict : AttrsDict Str
  unstructured : List Str

/-- descattrs.py:60-66: one description value; `setdefault` then `append` to the list stored there -/
def readOne (st : Desc) (desc : Str) : Desc :=
  match splitFirst '=' desc with
  | some (key, value) =>
    let q := AttrsDict.setDefault lower st.dict key (some [])
    { st with dict := AttrsDict.setInPlace lower q.1 key (q.2 ++ [value]) }
  | none => if desc ∈ st.unstructured then st else { st with unstructured := st.unstructured ++ [desc] }

/-- descattrs.py:54-66 `__init__`, after the description has been fetched: the description values of the object -/
def readDesc (descs : List Str) : Desc := descs.foldl (readOne lower) ⟨CIDict.empty, []⟩

/-- `attr in obj.descattrs`, descattrs.py:75-76 -/
def Desc.has (st : Desc) (attr : Str) : Bool := AttrsDict.has lower st.dict attr

/-- `obj.descattrs[attr]`, descattrs.py:72-73 -/
def Desc.item (st : Desc) (attr : Str) : Except Err (List Str) := CIDict.getItem lower st.dict attr

/-- `for attr in obj.descattrs`, descattrs.py:68-70: the keys of the underlying dict -/
def Desc.iter (st : Desc) : List Str := st.dict.data.keys

/-- descattrs.py:137-139: append unless present -/
def addVal (attr : Str) (d : AttrsDict Str) (v : Str) : AttrsDict Str :=
  let l := AttrsDict.getAttr lower d attr
  if v ∈ l then d else AttrsDict.setInPlace lower d attr (l ++ [v])

/-- descattrs.py:123-139 `_dict_mod_add`, one item -/
def addOne (d : AttrsDict Str) (kv : Str × List Str) : AttrsDict Str :=
  if AttrsDict.has lower d kv.1 then kv.2.foldl (addVal lower kv.1) d else CIDict.setItem lower d kv.1 kv.2

/-- descattrs.py:169-173: `to_dict[attr].remove(val)`, exceptions ignored -/
def removeVal (attr : Str) (d : AttrsDict Str) (v : Str) : AttrsDict Str :=
  match CIDict.getItem lower d attr with
  | .ok l => AttrsDict.setInPlace lower d attr (l.erase v)
  | .error _ => d

/-- descattrs.py:155-175 `_dict_mod_delete`, one item -/
def deleteOne (d : AttrsDict Str) (kv : Str × List Str) : AttrsDict Str :=
  if AttrsDict.has lower d kv.1 then
    match kv.2 with
    | [] => match CIDict.delItem lower d kv.1 with
      | .ok d' => d'
      | .error _ => d
    | _ => kv.2.foldl (removeVal lower kv.1) d
  else d

/-- the three public modifications -/
inductive DOp where
  | add (attrs : PDict Str (List Str))
  | replace (attrs : PDict Str (List Str))
  | delete (attrs : PDict Str (List Str))
  deriving DecidableEq, Repr

/-- descattrs.py:95-118: the function passed to `_modify_desc_attrs`, applied; `_dict_mod_replace` is descattrs.py:142-152 -/
def apply (d : AttrsDict Str) : DOp → AttrsDict Str
  | .add attrs => attrs.foldl (addOne lower) d
  | .replace attrs => CIDict.update lower d attrs
  | .delete attrs => attrs.foldl (deleteOne lower) d

/-- descattrs.py:89-93: the description values written -/
def render (order : List Str → List Str) (st : Desc) : List Str :=
  st.dict.items.flatMap (fun kv => kv.2.map (fun v => kv.1 ++ str "=" ++ v)) ++ order st.unstructured

abbrev descAttr : Str := str "description"

/-- descattrs.py:78-93 `_modify_desc_attrs`: the extension's state, the object's attributes, and what happened. `connected`: the object has a
connection (`_require_ldap`). -/
def modifyDesc (typeOf : TypeOf Str) (connected : Bool) (env : ObjEnv Str) (server : ModRequest Str → Except Err Unit) (order : List Str → List Str)
    (st : Desc) (obj : AttrsDict Str) (op : DOp) : Desc × AttrsDict Str × ModifyOut Str :=
  if connected then
    let st' := { st with dict := apply lower st.dict op }
    (st', env.replaceAttrs lower typeOf server obj [(descAttr, .list (render order st'))])
  else (st, obj, ⟨[], [], .error .runtimeError⟩)

end DescAttrs
end Laurelin
