import Verif.Model.Typed
/-!
Specification: what an attribute dictionary holds.
-/
namespace Laurelin.Spec.TypedS
open Laurelin Typed

/-- `str` or `bytes` -/
def IsStr (v : PVal) : Prop := (∃ s, v = .text s) ∨ ∃ b, v = .octets b

/-- a list of `str` or `bytes`; an `AttrsDict` takes `DELETE_ALL` as well -/
def Conforms (kind : Kind) (st : St) (v : PVal) : Prop :=
  (∃ r, v = .list r ∧ ∀ x ∈ st.contents r, IsStr x) ∨ (kind = .attrs ∧ v = .deleteAll)

/-- all items, and everything that is looked up, conform -/
def Typed (lower : Str → Str) (kind : Kind) (st : St) : Prop :=
  (∀ k v, (k, v) ∈ st.d.items → Conforms kind st v) ∧ ∀ k v, st.d.getItem lower k = .ok v → Conforms kind st v

/-- what `self[k]` shows: nothing, `DELETE_ALL` (`none`), or the elements of a list -/
def shows (lower : Str → Str) (st : St) (k : Str) : Option (Option (List PVal)) :=
  match st.d.getItem lower k with
  | .ok (.list r) => some (some (st.contents r))
  | .ok _ => some none
  | .error _ => none

/-- what a value shows -/
def valueShows (st : St) : PVal → Option (List PVal)
  | .list r => some (st.contents r)
  | _ => none

/-- the changes the program makes to list objects: those of an object's own lists keep to `str` and `bytes`; an `AttrsDict` shares the caller's lists, so that all changes have to -/
def Fair (kind : Kind) (calls : List Call) : Prop :=
  ∀ r vs, .change r vs ∈ calls → (kind = .object → ∃ n, r = .its n) → ∀ x ∈ vs, IsStr x

/-- a dictionary that came about by some history -/
def Reached (lower : Str → Str) (kind : Kind) (st : St) : Prop := ∃ mine calls, st = run lower kind (St.init mine) calls

/-- the items of a plain `dict` can be taken over -/
def Items (kind : Kind) (st : St) (items : List (PVal × PVal)) : Prop := ∀ k v, (k, v) ∈ items → (∃ a, k = .text a) ∧ Conforms kind st v

/-- what is shown after items have been taken over one by one -/
def taken (lower : Str → Str) (st : St) (s : Str → Option (Option (List PVal))) : List (PVal × PVal) → Str → Option (Option (List PVal))
  | [] => s
  | (.text a, v) :: rest => taken lower st (fun x => if lower x = lower a then some (valueShows st v) else s x) rest
  | _ :: rest => taken lower st s rest

end Laurelin.Spec.TypedS
