import Verif.Model.Attrs
/-!
What it means for the client's schema to decide equality of attribute values by a relation.
-/
namespace Laurelin.Spec
variable {V : Type} [DecidableEq V]

/-- `m attr stored asserted` is the equality relation of each attribute and `G attr v` says `v` is an acceptable
value for `attr`. `Decides typeOf m G` says that searching an acceptable value in a list of acceptable values
finds the position of the first stored value that matches, and raises `ValueError` when there is none.
(`c04_defined_decides`, `c04_default_decides` derive it for the two kinds of attribute types.) -/
def Decides (typeOf : TypeOf V) (m : Str → V → V → Bool) (G : Str → V → Prop) : Prop :=
  ∀ attr l v, (∀ x ∈ l, G attr x) → G attr v →
    AttrValueList.index typeOf attr l v =
      match l.findIdx? (fun x => m attr x v) with
      | some i => .ok i
      | none => .error .valueError

/-- an attribute dictionary all of whose values are acceptable -/
def GoodAttrs (lower : Str → Str) (G : Str → V → Prop) (d : AttrsDict V) : Prop :=
  ∀ attr, ∀ x ∈ AttrsDict.getAttr lower d attr, G attr x

/-- some known value of the attribute matches `v` -/
def knows (lower : Str → Str) (m : Str → V → V → Bool) (d : AttrsDict V) (attr : Str) (v : V) : Bool :=
  (AttrsDict.getAttr lower d attr).any (fun x => m attr x v)

end Laurelin.Spec
