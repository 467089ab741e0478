import Verif.Model.DictMethods
/-!
Specification: a dictionary whose keys are compared without regard to casing, that remembers the spelling and the order of insertion: a list of items.
-/
namespace Laurelin.Spec
variable {K V : Type} [DecidableEq K] (lower : K → K)

abbrev Items (K V : Type) := List (K × V)

namespace Items

def value (m : Items K V) (k : K) : Option V := (m.find? (fun p => lower p.1 = lower k)).map Prod.snd

/-- a new key goes to the end, one that is there keeps its place -/
def put (m : Items K V) (k : K) (v : V) : Items K V :=
  if ∃ p ∈ m, lower p.1 = lower k then m.map (fun p => if lower p.1 = lower k then (k, v) else p) else m ++ [(k, v)]

def drop (m : Items K V) (k : K) : Items K V := m.filter (fun p => lower p.1 ≠ lower k)

/-- what each method does, and what it gives -/
def step (m : Items K V) : DictCall K V → Items K V × DictRet K V
  | .op (.set k v) => (put lower m k v, .out .unit)
  | .op (.del k) => match value lower m k with
      | some _ => (drop lower m k, .out .unit)
      | none => (m, .out .keyError)
  | .op (.setdefault k v) => match value lower m k with
      | some w => (m, .out (.val w))
      | none => (put lower m k v, .out (.val v))
  | .op (.update kvs) => (kvs.foldl (fun acc kv => put lower acc kv.1 kv.2) m, .out .unit)
  | .op .clear => ([], .out .unit)
  | .op (.get k) => match value lower m k with
      | some w => (m, .out (.val w))
      | none => (m, .out .keyError)
  | .pop k dflt => match value lower m k with
      | some w => (drop lower m k, .out (.val w))
      | none => (m, .out (match dflt with | some v => .val v | none => .keyError))
  | .popitem => match m.getLast? with
      | some (k, v) => (m.dropLast, .item k v)
      | none => (m, .out .keyError)
  | .items => (m, .list m)

def run (m : Items K V) : List (DictCall K V) → Items K V × List (DictRet K V)
  | [] => (m, [])
  | c :: cs =>
    let r := step lower m c
    let r' := run r.1 cs
    (r'.1, r.2 :: r'.2)

end Items

/-- the keys that a call writes or pops, as spelled -/
def spelled : DictCall K V → List K
  | .op (.set k _) => [k]
  | .op (.setdefault k _) => [k]
  | .op (.update kvs) => kvs.map Prod.fst
  | .pop k _ => [k]
  | _ => []

/-- no two of these names differ in casing only -/
def OneSpelling (names : List K) : Prop := ∀ a ∈ names, ∀ b ∈ names, lower a = lower b → a = b

end Laurelin.Spec
