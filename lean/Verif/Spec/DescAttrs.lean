import Verif.Model.DescAttrs
/-!
Specification of structured descriptions: what a list of description values says (independently of the order in which they are collected), and
what each modification asks for.
-/
namespace Laurelin.Spec.DescS
open Laurelin DescAttrs

/-- the description value `d` is structured: `key=value`, the key without `=` -/
def Structured (d key value : Str) : Prop := d = key ++ str "=" ++ value ∧ '=' ∉ key

/-- what is said under each folded key, in order -/
abbrev Content := Str → List Str

/-- the description values that say something under the (folded) key `x`, without the key -/
inductive Says (lower : Str → Str) (x : Str) : List Str → List Str → Prop
  | nil : Says lower x [] []
  | here {d key v ds l} : Structured d key v → lower key = x → Says lower x ds l → Says lower x (d :: ds) (v :: l)
  | other {d key v ds l} : Structured d key v → lower key ≠ x → Says lower x ds l → Says lower x (d :: ds) l
  | unstructured {d ds l} : '=' ∉ d → Says lower x ds l → Says lower x (d :: ds) l

/-- append the values that are not there yet -/
def appendNew : List Str → List Str → List Str
  | l, [] => l
  | l, v :: vs => appendNew (if v ∈ l then l else l ++ [v]) vs

/-- remove one occurrence of each -/
def removeEach : List Str → List Str → List Str
  | l, [] => l
  | l, v :: vs => removeEach (l.erase v) vs

def Content.put (c : Content) (x : Str) (l : List Str) : Content := fun y => if y = x then l else c y

/-- what one item of a modification asks for -/
def addItem (lower : Str → Str) (c : Content) (kv : Str × List Str) : Content :=
  c.put (lower kv.1) (if c (lower kv.1) = [] then kv.2 else appendNew (c (lower kv.1)) kv.2)
def replaceItem (lower : Str → Str) (c : Content) (kv : Str × List Str) : Content := c.put (lower kv.1) kv.2
def deleteItem (lower : Str → Str) (c : Content) (kv : Str × List Str) : Content :=
  c.put (lower kv.1) (if kv.2 = [] then [] else removeEach (c (lower kv.1)) kv.2)

/-- what a modification asks for -/
def asked (lower : Str → Str) (c : Content) : DOp → Content
  | .add attrs => attrs.foldl (addItem lower) c
  | .replace attrs => attrs.foldl (replaceItem lower) c
  | .delete attrs => attrs.foldl (deleteItem lower) c

/-- the keys written by a modification -/
def keysOf : DOp → List Str
  | .add attrs => attrs.keys
  | .replace attrs => attrs.keys
  | .delete attrs => attrs.keys

end Laurelin.Spec.DescS
