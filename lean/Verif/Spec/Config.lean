import Verif.Model.Config
import Verif.Spec.Controls
/-!
What a user may expect of a configuration dictionary. Only the data types of the model are used.
-/
namespace Laurelin.Spec
open Laurelin Laurelin.Config

/-- The key names the class attribute: any casing, with or without `DEFAULT_`. -/
def NamesSetting (up : Str → Str) (k attr : Str) : Prop :=
  ∃ x, attr = str "DEFAULT_" ++ x ∧ (up k = x ∨ up k = str "DEFAULT_" ++ x)

/-- the value a configured value stands for: itself, except that the filter syntax is written as a word -/
inductive Denotes (up : Str → Str) (attr : Str) : CVal → CVal → Prop where
  | plain (v : CVal) : attr ≠ str "DEFAULT_FILTER_SYNTAX" → Denotes up attr v v
  | standard (s : Str) : attr = str "DEFAULT_FILTER_SYNTAX" → up s = str "STANDARD" → Denotes up attr (.text s) (.syn .standard)
  | simple (s : Str) : attr = str "DEFAULT_FILTER_SYNTAX" → up s = str "SIMPLE" → Denotes up attr (.text s) (.syn .simple)
  | unified (s : Str) : attr = str "DEFAULT_FILTER_SYNTAX" → up s = str "UNIFIED" → Denotes up attr (.text s) (.syn .unified)

/-- the key names one of the known parameters -/
def Known (up : Str → Str) (g : Globals) (k : Str) : Prop := ∃ attr ∈ g.keys, NamesSetting up k attr

/-- the entry names a known parameter but its value stands for nothing -/
def BadEntry (up : Str → Str) (g : Globals) (kv : Str × CVal) : Prop :=
  ∃ attr ∈ g.keys, NamesSetting up kv.1 attr ∧ ¬ ∃ w, Denotes up attr kv.2 w

/-- the class attributes after a configuration has been applied: each parameter has the value of the last entry naming it, or the one it had -/
structure AppliedTo (up : Str → Str) (g : Globals) (cfg : PDict Str CVal) (g' : Globals) : Prop where
  same : g'.keys = g.keys
  value : ∀ attr ∈ g.keys,
    (∃ pre k v post w, cfg = pre ++ (k, v) :: post ∧ NamesSetting up k attr ∧ (∀ kv ∈ post, ¬ NamesSetting up kv.1 attr) ∧
      Denotes up attr v w ∧ g'.get? attr = some w) ∨
    ((∀ kv ∈ cfg, ¬ NamesSetting up kv.1 attr) ∧ g'.get? attr = g.get? attr)

/-- Known parameters are called `DEFAULT_X`, where `X` does not itself begin so (true of the library's). -/
def PlainNames (g : Globals) : Prop := ∀ attr ∈ g.keys, ∃ x, attr = str "DEFAULT_" ++ x ∧ ¬ str "DEFAULT_" <+: x

/-- `str.upper` on ASCII text -/
def UpperAscii (up : Str → Str) : Prop := ∀ s : Str, (∀ c ∈ s, c.toNat < 128) → up s = s.map Char.toUpper

/-- the class attribute documented as the default of a constructor parameter: `DEFAULT_` and the name in capitals, without `default_` -/
def defaultOf (p : Str) : Str :=
  str "DEFAULT_" ++ ((if str "default_" <+: p then p.drop 8 else p).map Char.toUpper)

/-- `v` is absent or `None` -/
def Unset : Option CVal → Prop
  | none => True
  | some v => v = .none

/-- Python truth of an optional entry (absent counts as false) -/
def Yes : Option CVal → Prop
  | some (.flag b) => b = true
  | some (.num n) => n ≠ 0
  | some (.text s) => s ≠ []
  | some (.dict d) => d ≠ []
  | some (.vals l) => l ≠ []
  | some (.syn _) => True
  | some (.scope _) => True
  | some .none => False
  | none => False

/-- the names of the constructor's parameters (from its documentation) -/
def paramNames : List Str :=
  [str "server", str "base_dn", str "reuse_connection", str "connect_timeout", str "search_timeout", str "deref_aliases",
   str "strict_modify", str "ssl_verify", str "ssl_ca_file", str "ssl_ca_path", str "ssl_ca_data", str "fetch_result_refs",
   str "default_sasl_mech", str "sasl_fatal_downgrade_check", str "default_criticality", str "follow_referrals", str "validators",
   str "warn_empty_list", str "error_empty_list", str "ignore_empty_list", str "filter_syntax", str "built_in_extensions_only"]

instance (v : Option CVal) : Decidable (Unset v) := by unfold Unset; split <;> infer_instance

/-- a `validators` entry and the instance used for it: a class named by a string is imported and instantiated -/
inductive ValidatorFor (mk : Str → Except Err Nat) : VItem → VItem → Prop where
  | named (s : Str) (n : Nat) : mk s = .ok n → ValidatorFor mk (.name s) (.inst n)
  | given (n : Nat) : ValidatorFor mk (.inst n) (.inst n)

/-- the `validators` argument the constructor gets (`none`: no such argument) -/
inductive ValidatorsArg (mk : Str → Except Err Nat) : Option CVal → Option CVal → Prop where
  | absent : ValidatorsArg mk none none
  | list (l l' : List VItem) : Pairwise2 (ValidatorFor mk) l l' → ValidatorsArg mk (some (.vals l)) (some (.vals l'))
  | emptyText : ValidatorsArg mk (some (.text [])) (some (.vals []))

/-- the value of one setting: the argument if there is one other than `None`, else the default of that name -/
def settingFrom (g : Globals) (p : Str) (arg : Option CVal) : CVal :=
  match arg with
  | some v => if v = .none then (g.get? (defaultOf p)).getD .none else v
  | none => (g.get? (defaultOf p)).getD .none

/-- all settings of the new connection -/
def settingsFrom (g : Globals) (conn : PDict Str CVal) (vals : Option CVal) : List (Str × CVal) :=
  paramNames.map fun p => (p, settingFrom g p (if p = str "validators" then vals else conn.get? p))

/-- the scope words of RFC 4516 in any casing -/
inductive ScopeWord : Str → Scope → Prop where
  | base (s : Str) : s.map Char.toLower = str "base" → ScopeWord s .base
  | one (s : Str) : s.map Char.toLower = str "one" → ScopeWord s .one
  | sub (s : Str) : s.map Char.toLower = str "sub" → ScopeWord s .sub

/-- an `objects` entry with its scope word, if any, replaced by the scope -/
inductive ScopeRead (d : PDict Str CVal) : PDict Str CVal → Prop where
  | none : d.get? (str "relative_search_scope") = .none → ScopeRead d d
  | word (s : Str) (x : Scope) : d.get? (str "relative_search_scope") = some (.text s) → ScopeWord s x →
      ScopeRead d (d.set (str "relative_search_scope") (.scope x))

/-- the call made for one entry of `objects` -/
inductive ObjectCall (d : PDict Str CVal) : Call → Prop where
  | relative (d' : PDict Str CVal) : (d.get? (str "rdn")).isSome → d.get? (str "dn") = none → (d.get? (str "tag")).isSome →
      ScopeRead d d' → ObjectCall d (.obj true d')
  | absolute (d' : PDict Str CVal) : (d.get? (str "dn")).isSome → d.get? (str "rdn") = none → (d.get? (str "tag")).isSome →
      ScopeRead d d' → ObjectCall d (.obj false d')

/-- a configuration that can be carried out, and the calls that do it, in order -/
structure Ideal (mk : Str → Except Err Nat) (g : Globals) (conn : PDict Str CVal) (objs : List (PDict Str CVal)) (cs : List Call) : Prop where
  oneBind : ¬ (Yes (conn.get? (str "simple_bind")) ∧ Yes (conn.get? (str "sasl_bind")))
  keys : ∀ k ∈ conn.keys, k ∈ paramNames ∨ k ∈ [str "start_tls", str "simple_bind", str "sasl_bind"]
  calls : ∃ vals tls bind os, ValidatorsArg mk (conn.get? (str "validators")) vals ∧
    cs = .construct (settingsFrom g conn vals) :: tls ++ bind ++ os ∧
    ((Yes (conn.get? (str "start_tls")) ∧ tls = [.startTls]) ∨ (¬ Yes (conn.get? (str "start_tls")) ∧ tls = [])) ∧
    ((∃ kw, conn.get? (str "simple_bind") = some (.dict kw) ∧ kw ≠ [] ∧ bind = [.simpleBind kw]) ∨
     (∃ kw, conn.get? (str "sasl_bind") = some (.dict kw) ∧ kw ≠ [] ∧ bind = [.saslBind kw]) ∨
     (¬ Yes (conn.get? (str "simple_bind")) ∧ ¬ Yes (conn.get? (str "sasl_bind")) ∧ bind = [])) ∧
    Pairwise2 ObjectCall objs os

/-- calls that send credentials -/
def isBind : Call → Prop
  | .simpleBind _ => True
  | .saslBind _ => True
  | _ => False

end Laurelin.Spec
