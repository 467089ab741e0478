import Verif.Spec.ObjectLife
import Verif.Spec.DescAttrs
import Verif.Model.ApiDescAttrs
/-!
Specification: structured descriptions of an entry of a directory.
-/
namespace Laurelin.Spec.DescWire
open Laurelin Codec DescAttrs DescS ObjectS

/-- A program of modifications, of an entry whose description values are `ds` and say `c`: keys hold no `=`, a key that is replaced is spelled as it was before, and after each modification something is left to be
written. -/
structure Program (lower : Str → Str) (ds : List Str) (c : Content) (ops : List DOp) : Prop where
  keys : ∀ op ∈ ops, ∀ k ∈ keysOf op, '=' ∉ k
  spelled : ∀ attrs, .replace attrs ∈ ops → ∀ a ∈ attrs.keys, ∀ b, ((∃ d ∈ ds, ∃ v, Structured d b v) ∨ ∃ op ∈ ops, b ∈ keysOf op) → lower b = lower a → b = a
  left : ∀ pre, pre <+: ops → pre ≠ [] → (∃ x, pre.foldl (asked lower) c x ≠ []) ∨ ∃ u ∈ ds, '=' ∉ u

/-- the description of the entry says `c`, its unstructured values are those of `ds`, and nothing else has changed -/
def Described (lower : Str → Str) (ds : List Str) (c : Content) (e e' : Spec.Entry Bytes) : Prop :=
  (∃ ds', e' (lower descAttr) = ds'.map utf8Enc ∧ (∀ x, Says lower x ds' (c x)) ∧ ∀ u, (u ∈ ds' ∧ '=' ∉ u) ↔ (u ∈ ds ∧ '=' ∉ u)) ∧ ∀ y, y ≠ lower descAttr → e' y = e y

/-- the last of the modifications `ops` has raised and no entry has changed, or the object's entry says what they all have asked for, and no other entry has changed -/
def ChangeMeans {D : Type} (lower norm : Str → Str) (at_ : D → Str → Option (Spec.Entry Bytes)) (ds : List Str) (c : Content) (ops : List DOp) (dn : Str) (d : D) (res : Except Err Unit) (d' : D) : Prop :=
  match res with
  | .error _ => ∀ x, at_ d' x = at_ d x
  | .ok _ => Changed at_ d d' (norm dn) (Described lower ds (ops.foldl (asked lower) c))

end Laurelin.Spec.DescWire
