import Verif.Model.Attrs
import Verif.Model.BaseRules
import Verif.Model.BaseSchema
/-!
Attribute types put together: the registry of types read from specifications (laurelin/ldap/attributetype.py:16-146), inheritance from supertypes (148-167), and the syntax and equality
rules they refer to. What results is the `get_attribute_type` that attribute value lists, changes and validation use.
-/
namespace Laurelin.AttrSchema
open Laurelin Schema SchemaSpec BaseRules

/-- All global tables: `_oid_attribute_types`/`_name_attribute_types` (attributetype.py:16-17), `_oid_syntax_rules` (rules.py:10), `_oid_matching_rules`/`_name_matching_rules`
(rules.py:86-87); and `str.lower`, the Unicode tables. `depth`: how many nested attribute reads Python's recursion limit allows. -/
structure Env where
  lower : Str → Str
  U : Uni
  depth : Nat
  types : Reg ATFields
  syntaxes : PDict Str SyntaxRule
  rules : List MatchingRule

/-- The element `AttributeType(spec).register()` registers, attributetype.py:136-146 -/
def elemOf (f : ATFields) : Elem ATFields := ⟨f.oid, f.names, f⟩

/-- `getattr(t, name)` for an instance attribute: read from the supertype when the specification does not set it, attributetype.py:162-167. An undefined supertype is a
`DefaultAttributeType`; `undef`: the attribute of that, if it has it (251-262). -/
def readField {α : Type} (env : Env) (own : ATFields → Option α) (undef : Option α) : Nat → ATFields → Except Err α
  | 0, _ => .error .recursion
  | n + 1, t =>
    match own t with
    | some x => .ok x
    | none =>
      match t.supertype with
      | none => .error .attributeError
      | some s =>
        match env.types.find env.lower s with
        | .error e => .error e
        | .ok (.elem e) => readField env own undef n e.body
        | .ok (.dflt _) =>
          match undef with
          | some x => .ok x
          | none => .error .attributeError

/-- The properties `syntax` and `equality`, attributetype.py:148-160: `field` is `syntax_oid`/`equality_oid`, which may be unset all the way up to an undefined type; Python then asks the supertype
for the property itself, ending with that of `DefaultAttributeType` (264-270), `dflt`. `ruleOf` looks the rule up. -/
def readRule {R : Type} (env : Env) (field : ATFields → Option (Option Str)) (ruleOf : Str → Except Err R) (dflt : R) : Nat → ATFields → Except Err R
  | 0, _ => .error .recursion
  | n + 1, t =>
    match readField env field none (n + 1) t with
    | .ok none => .error .ldapSchema
    | .ok (some o) => if o = [] then .error .ldapSchema else ruleOf o
    | .error .attributeError =>
      match t.supertype with
      | none => .error .attributeError
      | some s =>
        match env.types.find env.lower s with
        | .error e => .error e
        | .ok (.elem e) => readRule env field ruleOf dflt n e.body
        | .ok (.dflt _) => .ok dflt
    | .error e => .error e

/-- `t.syntax`, attributetype.py:148-153. `DefaultSyntaxRule` (217-225) accepts everything. -/
def syntaxOf (env : Env) (t : ATFields) : Except Err SyntaxRule :=
  readRule env (·.syntaxOid) (getSyntaxRule env.syntaxes) (.rule .anything) env.depth t

/-- `t.equality`, attributetype.py:155-160. `DefaultMatchingRule` (228-247) prepares nothing and compares with `==`. -/
def equalityOf (env : Env) (t : ATFields) : Except Err EqRule :=
  readRule env (·.equalityOid) (fun o => (getMatchingRule env.lower env.rules o).map (·.eq)) (.prep []) env.depth t

/-- `t.validate(value)`, attributetype.py:169-180 -/
def validate (env : Env) (t : ATFields) (v : Str) : Except Err Unit :=
  match readField env (·.syntaxLength) none env.depth t with
  | .error e => .error e
  | .ok n =>
    if n.any (fun n => decide (v.length > n)) then .error .invalidSyntax
    else match syntaxOf env t with
      | .error e => .error e
      | .ok r => r.validate v

/-- `get_attribute_type(name)`, attributetype.py:20-33, as `AttrValueList` uses it: `self.equality` is read anew for each value (199-200) -/
def typeOf (env : Env) : TypeOf Str := fun name =>
  match env.types.find env.lower name with
  | .error e => .error e
  | .ok (.dflt _) => .ok .default
  | .ok (.elem e) => .ok (.defined (validate env e.body)
      (fun v => match equalityOf env e.body with | .error x => .error x | .ok r => r.prepare env.U v)
      (fun a b => match equalityOf env e.body with | .error x => .error x | .ok r => r.doMatch a b))

/-- Reading and registering specifications one after the other; an exception leaves the registry as far as it got. attributetype.py:67-146 -/
def load (lower : Str → Str) (r : Reg ATFields) : List Str → Reg ATFields × Except Err Unit
  | [] => (r, .ok ())
  | s :: l =>
    match attributeType s with
    | .error e => (r, .error e)
    | .ok f =>
      match r.register lower (elemOf f) with
      | (r, .error e) => (r, .error e)
      | (r, .ok ()) => load lower r l

/-- the tables after `base_schema` and `netgroups` were required -/
def shippedEnv (lower : Str → Str) (U : Uni) (depth : Nat) (types : Reg ATFields) : Env :=
  ⟨lower, U, depth, types, baseSyntaxes ++ netgroupSyntaxes, baseMatchingRules⟩

end Laurelin.AttrSchema
