import Verif.Spec.Rfc2849
import Verif.Spec.Controls
/-!
What it means that LDIF text describes a modification (RFC 2849 `change-modify`), on top of `Spec/Rfc2849.lean`.
-/
namespace Laurelin.Spec.ModLdif
open Laurelin Laurelin.Spec.Ldif

/-- the values a change names; deleting all values names none -/
def named : Vals LVal → List LVal
  | .deleteAll => []
  | .list l => l

/-- `mod-spec`: the logical lines of one change, each value line reading as the octets of the value -/
def ModReads (m : Mod LVal) (lines : List Str) : Prop :=
  ∃ vlines, lines = (opName m.op ++ str ": " ++ m.attr) :: (vlines ++ [str "-"]) ∧
    Pairwise2 (fun l v => Reads l m.attr (octets v)) vlines (named m.vals)

/-- a change record: the DN line, `changetype: modify`, then one `mod-spec` per change, in order -/
def ModifyReads (dn : Str) (mods : List (Mod LVal)) (lines : List Str) : Prop :=
  ∃ dl blocks, Reads dl (str "dn") (Codec.utf8Enc dn) ∧ Pairwise2 ModReads mods blocks ∧
    lines = dl :: str "changetype: modify" :: blocks.flatten

/-- the text, read by the rules of RFC 2849, describes these changes of this entry -/
def Describes (text : Str) (dn : Str) (mods : List (Mod LVal)) : Prop :=
  ∃ lines, logical text = lines ++ [[]] ∧ ModifyReads dn mods lines

/-- an attribute description on a line: not empty, no leading space, no newline -/
def LineName (a : Str) : Prop := a ≠ [] ∧ a.head? ≠ some ' ' ∧ '\n' ∉ a

/-- what `process_ldif` can read back (see C44): no white space at the ends, not empty, no line boundary, no colon -/
def Plain (s : Str) : Prop :=
  s ≠ [] ∧ (∀ c, s.head? = some c → ¬ isSpace c) ∧ (∀ c, s.getLast? = some c → ¬ isSpace c) ∧
  (∀ c ∈ s, Laurelin.Ldif.isBreak c = false) ∧ ':' ∉ s

end Laurelin.Spec.ModLdif
