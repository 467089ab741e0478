import Verif.Model.Registration
/-! Specification of requiring: which elements belong to a module or package. -/
namespace Laurelin.Spec.RegS
open Laurelin

/-- `k` is the module `m`, or a submodule of the package `m` -/
def Belongs (m k : Str) : Prop := k = m ∨ ∃ r, k = m ++ str "." ++ r

/-- the elements defined in modules that satisfy `P` -/
inductive ElementsOf {E : Type} (P : Str → Prop) : PDict Str (List E) → List E → Prop
  | nil : ElementsOf P [] []
  | take {k es rest l} : P k → ElementsOf P rest l → ElementsOf P ((k, es) :: rest) (es ++ l)
  | skip {k es rest l} : ¬ P k → ElementsOf P rest l → ElementsOf P ((k, es) :: rest) l

/-- neither is a submodule of the other -/
def Unrelated (m m' : Str) : Prop := ∀ r, m ≠ m' ++ str "." ++ r ∧ m' ≠ m ++ str "." ++ r

/-- no submodule of `m` was defined before `m` itself -/
def OwnFirst {E : Type} (m : Str) (pre : PDict Str (List E)) : Prop :=
  ∀ a es b, pre = a ++ (m, es) :: b → ∀ kv ∈ a, ∀ r, kv.1 ≠ m ++ str "." ++ r

end Laurelin.Spec.RegS
