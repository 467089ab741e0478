import Verif.Model.Controls
/-!
What a caller may expect of control keywords, stated per keyword argument (only the data types of the controls model are used).
-/
namespace Laurelin.Spec
open Laurelin.Controls
variable {V R : Type}

/-- the criticality the caller asked for: the explicit wrapper, else the default -/
def wantedCriticality (dflt : Bool) : Kwd V → Bool
  | .plain _ => dflt
  | .critical _ => true
  | .optional _ => false

/-- the value inside the wrapper -/
def kwdValue : Kwd V → V
  | .plain v => v
  | .critical v => v
  | .optional v => v

/-- keyword argument `kv` is properly turned into the control `w` -/
structure Attached (reg : PDict Str (Cls V R)) (method : Str) (supported : List Str) (dflt : Bool)
    (kv : Str × Kwd V) (w : Wire) : Prop where
  ex : ∃ c, reg.get? kv.1 = some c ∧ c.method.has method = true ∧ w.oid = c.requestOid ∧
    w.critical = wantedCriticality dflt kv.2 ∧
    (wantedCriticality dflt kv.2 = true → c.requestOid ∈ supported) ∧
    ∃ b, c.prepare (kwdValue kv.2) = .ok b ∧ w.value = if b = [] then none else some b

/-- keyword argument `kv` has to be refused with `e` -/
inductive Refused (reg : PDict Str (Cls V R)) (method : Str) (supported : List Str) (dflt : Bool) (kv : Str × Kwd V) : Err → Prop where
  | notApplicable (c : Cls V R) : reg.get? kv.1 = some c → c.method.has method = false → Refused reg method supported dflt kv .ldapError
  | unsupported (c : Cls V R) : reg.get? kv.1 = some c → c.method.has method = true → wantedCriticality dflt kv.2 = true →
      c.requestOid ∉ supported → Refused reg method supported dflt kv .ldapSupport
  | badValue (c : Cls V R) (e : Err) : reg.get? kv.1 = some c → c.method.has method = true →
      (wantedCriticality dflt kv.2 = true → c.requestOid ∈ supported) → c.prepare (kwdValue kv.2) = .error e →
      Refused reg method supported dflt kv e

/-- does the keyword name a registered control? -/
def isControl (reg : PDict Str (Cls V R)) (kv : Str × Kwd V) : Bool := (reg.get? kv.1).isSome

/-- the result of an operation on all elements: lists related element by element, in order -/
inductive Pairwise2 {A B : Type} (P : A → B → Prop) : List A → List B → Prop where
  | nil : Pairwise2 P [] []
  | cons {a b as bs} : P a b → Pairwise2 P as bs → Pairwise2 P (a :: as) (b :: bs)

end Laurelin.Spec
