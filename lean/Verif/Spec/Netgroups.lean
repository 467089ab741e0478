import Verif.Model.Netgroups
/-!
Specification of netgroup triples, member lists and netgroup membership, independent of the functions of the model (shared data: `Member`,
`Field`, and what attributes an object has).
-/
namespace Laurelin.Spec.Ng
open Laurelin Netgroups

/-- the text `s` is the triple of host `h`, user `u` and domain `d` -/
def Triple (s h u d : Str) : Prop :=
  s = str "(" ++ h ++ str "," ++ u ++ str "," ++ d ++ str ")" ∧ ',' ∉ h ∧ ',' ∉ u ∧ ')' ∉ d

/-- what laurelin takes for a triple: a triple, possibly followed by one newline -/
def TripleLine (s h u d : Str) : Prop := Triple s h u d ∨ ∃ t, Triple t h u d ∧ s = t ++ ['\n']

/-- the field of a triple that is asked for -/
def fieldOf : Field → Str → Str → Str
  | .host, h, _ => h
  | .user, _, u => u

def orEmpty (x : Option Str) : Str := x.getD []

/-- What one entry of a member list stands for: the attribute and the value added. `dom` is the default domain. A plain name is a user or a host
according to the function called. -/
inductive Entry : Field → Str → Member → Str → Str → Prop
  /-- `+name`: a member netgroup -/
  | group {fld dom g} : Entry fld dom (.text ('+' :: g)) memberAttr g
  /-- a full triple is taken as it is -/
  | full {fld dom s h u d} : TripleLine s h u d → Entry fld dom (.text s) tripleAttr s
  | user {dom s} : s ≠ [] → s.head? ≠ some '+' → (¬ ∃ h u d, TripleLine s h u d) →
      Entry .user dom (.text s) tripleAttr (str "(," ++ s ++ str "," ++ dom ++ str ")")
  | host {dom s} : s ≠ [] → s.head? ≠ some '+' → (¬ ∃ h u d, TripleLine s h u d) →
      Entry .host dom (.text s) tripleAttr (str "(" ++ s ++ str ",," ++ dom ++ str ")")
  /-- a one-element tuple is a host; there is no such entry in a list of users -/
  | hostTuple {dom h} : Entry .host dom (.tuple [h]) tripleAttr (str "(" ++ orEmpty h ++ str ",," ++ dom ++ str ")")
  | pair {fld dom h u} : Entry fld dom (.tuple [h, u]) tripleAttr (str "(" ++ orEmpty h ++ str "," ++ orEmpty u ++ str "," ++ dom ++ str ")")
  | triple {fld dom h u d} :
      Entry fld dom (.tuple [h, u, d]) tripleAttr (str "(" ++ orEmpty h ++ str "," ++ orEmpty u ++ str "," ++ orEmpty d ++ str ")")

/-- What is wrong with an entry that stands for nothing. -/
inductive BadEntry : Field → Member → Err → Prop
  | empty {fld} : BadEntry fld (.text []) .indexError
  | noUser {h} : BadEntry .user (.tuple [h]) .valueError
  | noField {fld} : BadEntry fld (.tuple []) .valueError
  | tooMany {fld a b c d l} : BadEntry fld (.tuple (a :: b :: c :: d :: l)) .valueError
  | other {fld} : BadEntry fld .other .typeError

/-- entries and the attribute-value pairs they stand for, one for one -/
inductive Entries (fld : Field) (dom : Str) : List Member → List (Str × Str) → Prop
  | nil : Entries fld dom [] []
  | cons {m a v ms l} : Entry fld dom m a v → Entries fld dom ms l → Entries fld dom (m :: ms) ((a, v) :: l)

/-- the values of an attribute among attribute-value pairs, in order -/
def valuesOf (a : Str) (l : List (Str × Str)) : List Str := (l.filter (fun p => p.1 == a)).map Prod.snd

/-- A directory of netgroups: which triples and which member netgroups the group of a given name has (`none`: no such group). -/
abbrev NgDir := Str → Option (List Str × List Str)

/-- `g` is reached from `cn` by following member netgroups -/
inductive Reach (dir : NgDir) : Str → Str → Prop
  | refl {g} : Reach dir g g
  | step {g ts ms m k} : dir g = some (ts, ms) → m ∈ ms → Reach dir m k → Reach dir g k

/-- `m` is a member netgroup of `g` -/
def Member1 (dir : NgDir) (g m : Str) : Prop := ∃ ts ms, dir g = some (ts, ms) ∧ m ∈ ms

/-- one or more steps along member netgroups -/
def Reach1 (dir : NgDir) (g k : Str) : Prop := ∃ m, Member1 dir g m ∧ Reach dir m k

/-- the group `g` itself names `x` in one of its triples -/
def NamedBy (dir : NgDir) (fld : Field) (g x : Str) : Prop :=
  ∃ ts ms t h u d, dir g = some (ts, ms) ∧ t ∈ ts ∧ TripleLine t h u d ∧ fieldOf fld h u = x

/-- the group `g` exists and all its triples are triples -/
def Sound (dir : NgDir) (g : Str) : Prop := ∃ ts ms, dir g = some (ts, ms) ∧ ∀ t ∈ ts, ∃ h u d, TripleLine t h u d

/-- the fields of the triples, in order -/
inductive FieldsOf (fld : Field) : List Str → List Str → Prop
  | nil : FieldsOf fld [] []
  | cons {t h u d ts l} : TripleLine t h u d → FieldsOf fld ts l → FieldsOf fld (t :: ts) (fieldOf fld h u :: l)

/-- the directory seen through lookups by name -/
def dirOf (lower : Str → Str) (find : Str → Except Err Ng) : NgDir := fun g =>
  match find g with
  | .ok ng => some (AttrsDict.getAttr lower ng tripleAttr, AttrsDict.getAttr lower ng memberAttr)
  | .error _ => none

end Laurelin.Spec.Ng
