import Verif.Model.CaseIgnoreDict
/-!
Specification of a case-insensitive dictionary: a plain function from folded names to values.
Only the operation/outcome vocabulary (`DictOp`, `DictOut`) is shared with the model.
-/
namespace Laurelin.Spec

/-- the abstract dictionary: what is stored under each folded name -/
abbrev FoldMap (K V : Type) := K → Option V

variable {K V : Type} [DecidableEq K] (lower : K → K)

def FoldMap.put (m : FoldMap K V) (k : K) (v : V) : FoldMap K V :=
  fun x => if x = lower k then some v else m x

def FoldMap.drop (m : FoldMap K V) (k : K) : FoldMap K V :=
  fun x => if x = lower k then none else m x

/-- one operation on the abstract dictionary -/
def FoldMap.step (m : FoldMap K V) : DictOp K V → FoldMap K V × DictOut V
  | .set k v => (m.put lower k v, .unit)
  | .del k => match m (lower k) with
      | some _ => (m.drop lower k, .unit)
      | none => (m, .keyError)
  | .setdefault k v => match m (lower k) with
      | some w => (m, .val w)
      | none => (m.put lower k v, .val v)
  | .update kvs => (kvs.foldl (fun acc kv => acc.put lower kv.1 kv.2) m, .unit)
  | .clear => (fun _ => none, .unit)
  | .get k => match m (lower k) with
      | some w => (m, .val w)
      | none => (m, .keyError)

def FoldMap.run (m : FoldMap K V) : List (DictOp K V) → FoldMap K V × List (DictOut V)
  | [] => (m, [])
  | op :: ops =>
    let r := m.step lower op
    let r' := FoldMap.run r.1 ops
    (r'.1, r.2 :: r'.2)

/-- the keys an operation writes, as spelled by the caller -/
def writtenKeys : DictOp K V → List K
  | .set k _ => [k]
  | .setdefault k _ => [k]
  | .update kvs => kvs.map Prod.fst
  | _ => []

/-- the caller always spells a given (folded) name the same way -/
def ConsistentCasing (ops : List (DictOp K V)) : Prop :=
  ∀ a ∈ ops.flatMap writtenKeys, ∀ b ∈ ops.flatMap writtenKeys, lower a = lower b → a = b

end Laurelin.Spec
