import Verif.Spec.Server
/-!
RFC 4511 section 4.5.1.8 and RFC 3673: which attributes of an entry a search returns for an attribute selection.
Independent of the client code.
-/
namespace Laurelin.Spec
variable {V : Type}

/-- What the server knows about attribute names (folded): which are operational, and which are covered by naming another
description (the attribute itself, its subtypes, its options). -/
structure Naming (lower : Str → Str) where
  operational : Str → Prop
  covers : Str → Str → Prop
  itself : ∀ name, covers name (lower name)

/-- the folded attribute `x` is selected by the list `sel`: no list or `*` – all user attributes; `+` – all operational
attributes; a name – what it covers -/
def Selected {lower : Str → Str} (N : Naming lower) (sel : List Str) (x : Str) : Prop :=
  (¬ N.operational x ∧ (sel = [] ∨ str "*" ∈ sel)) ∨ (N.operational x ∧ str "+" ∈ sel) ∨ ∃ s ∈ sel, N.covers s x

/-- what the server returns: the selected attributes it has values for, with all their values, nothing else -/
structure Returns {lower : Str → Str} (N : Naming lower) (e : Entry V) (sel : List Str) (got : List (Str × List V)) : Prop where
  sound : ∀ kv ∈ got, kv.2 = e (lower kv.1) ∧ kv.2 ≠ [] ∧ Selected N sel (lower kv.1)
  complete : ∀ x, e x ≠ [] → Selected N sel x → ∃ kv ∈ got, lower kv.1 = x

end Laurelin.Spec
