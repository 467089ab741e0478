import Verif.Model.SearchRequest
import Verif.Model.LdapUri
/-!
# Configuration (laurelin/ldap/config.py; the constructor's use of the defaults, laurelin/ldap/base.py:220-292)

Files, YAML and JSON decoding (config.py:189-230) are not modelled: a configuration is the decoded dictionary.
`up` is Python's `str.upper`. What the library does with servers is a list of calls whose outcomes are given by `env`.
-/
namespace Laurelin.Config

/-- an entry of a `validators` list: a dotted name, a `Validator` instance, or something else -/
inductive VItem where
  | name (s : Str)
  | inst (n : Nat)
  | junk
  deriving DecidableEq, Repr

/-- the values in a configuration dictionary -/
inductive CVal where
  | none
  | flag (b : Bool)
  | num (n : Int)
  | text (s : Str)
  | syn (x : FSyntax)
  | scope (x : Scope)
  | dict (d : PDict Str Str)
  | vals (l : List VItem)
  deriving DecidableEq, Repr

/-- Python truth value -/
def CVal.truthy : CVal → Bool
  | .none => false
  | .flag b => b
  | .num n => n ≠ 0
  | .text s => !s.isEmpty
  | .syn _ => true
  | .scope _ => true
  | .dict d => !d.isEmpty
  | .vals l => !l.isEmpty

/-- `FilterSyntax.string`, constants.py:34-37: `.upper()` and `getattr` raise `AttributeError`. -/
def filterSyntaxString (up : Str → Str) : CVal → Except Err CVal
  | .text s =>
    if up s = str "STANDARD" then .ok (.syn .standard)
    else if up s = str "SIMPLE" then .ok (.syn .simple)
    else if up s = str "UNIFIED" then .ok (.syn .unified)
    else .error .attributeError
  | _ => .error .attributeError

abbrev defaultPrefix : Str := str "DEFAULT_"

/-- config.py:43-53 -/
def normalizeParam (up : Str → Str) (key : Str) : Str :=
  if startsWith (up key) defaultPrefix then up key else defaultPrefix ++ up key

/-- the class attributes of `LDAP` (base.py:147-170) -/
abbrev Globals := PDict Str CVal

/-- config.py:38-40, 76: the mapper of one global parameter -/
def globalMapper (up : Str → Str) (key : Str) (v : CVal) : Except Err CVal :=
  if key = str "DEFAULT_FILTER_SYNTAX" then filterSyntaxString up v else .ok v

/-- The loop of `set_global_config`, config.py:71-79; `bad`: has an unknown key been met. -/
def setGlobalLoop (up : Str → Str) (g : Globals) (bad : Bool) : PDict Str CVal → Except Err Bool × Globals
  | [] => (.ok bad, g)
  | (k, v) :: t =>
    let key := normalizeParam up k
    if (g.get? key).isSome then
      match globalMapper up key v with
      | .error e => (.error e, g)
      | .ok w => setGlobalLoop up (g.set key w) bad t
    else setGlobalLoop up g true t

/-- config.py:56-81 `set_global_config` -/
def setGlobal (up : Str → Str) (g : Globals) (cfg : PDict Str CVal) : Except Err Unit × Globals :=
  match setGlobalLoop up g false cfg with
  | (.error e, g') => (.error e, g')
  | (.ok true, g') => (.error .keyError, g')
  | (.ok false, g') => (.ok (), g')

/-- the constructor's keyword arguments and the class attribute each falls back to, base.py:220-273 -/
def ctorParams : List (Str × Str) :=
  [(str "server", str "DEFAULT_SERVER"), (str "base_dn", str "DEFAULT_BASE_DN"),
   (str "reuse_connection", str "DEFAULT_REUSE_CONNECTION"), (str "connect_timeout", str "DEFAULT_CONNECT_TIMEOUT"),
   (str "search_timeout", str "DEFAULT_SEARCH_TIMEOUT"), (str "deref_aliases", str "DEFAULT_DEREF_ALIASES"),
   (str "strict_modify", str "DEFAULT_STRICT_MODIFY"), (str "ssl_verify", str "DEFAULT_SSL_VERIFY"),
   (str "ssl_ca_file", str "DEFAULT_SSL_CA_FILE"), (str "ssl_ca_path", str "DEFAULT_SSL_CA_PATH"),
   (str "ssl_ca_data", str "DEFAULT_SSL_CA_DATA"), (str "fetch_result_refs", str "DEFAULT_FETCH_RESULT_REFS"),
   (str "default_sasl_mech", str "DEFAULT_SASL_MECH"),
   (str "sasl_fatal_downgrade_check", str "DEFAULT_SASL_FATAL_DOWNGRADE_CHECK"),
   (str "default_criticality", str "DEFAULT_CRITICALITY"), (str "follow_referrals", str "DEFAULT_FOLLOW_REFERRALS"),
   (str "validators", str "DEFAULT_VALIDATORS"), (str "warn_empty_list", str "DEFAULT_WARN_EMPTY_LIST"),
   (str "error_empty_list", str "DEFAULT_ERROR_EMPTY_LIST"), (str "ignore_empty_list", str "DEFAULT_IGNORE_EMPTY_LIST"),
   (str "filter_syntax", str "DEFAULT_FILTER_SYNTAX"),
   (str "built_in_extensions_only", str "DEFAULT_BUILT_IN_EXTENSIONS_ONLY")]

/-- base.py:147-170: the class attributes as shipped (`DerefAliases.ALWAYS` is shown as its wire number 3) -/
def shipped : Globals :=
  [(str "DEFAULT_SERVER", .text (str "ldap://localhost")), (str "DEFAULT_BASE_DN", .none),
   (str "DEFAULT_FILTER", .text (str "(objectClass=*)")), (str "DEFAULT_DEREF_ALIASES", .num 3),
   (str "DEFAULT_SEARCH_TIMEOUT", .num 0), (str "DEFAULT_CONNECT_TIMEOUT", .num 5), (str "DEFAULT_STRICT_MODIFY", .flag false),
   (str "DEFAULT_REUSE_CONNECTION", .flag true), (str "DEFAULT_SSL_VERIFY", .flag true), (str "DEFAULT_SSL_CA_FILE", .none),
   (str "DEFAULT_SSL_CA_PATH", .none), (str "DEFAULT_SSL_CA_DATA", .none), (str "DEFAULT_FETCH_RESULT_REFS", .flag true),
   (str "DEFAULT_FOLLOW_REFERRALS", .flag true), (str "DEFAULT_SASL_MECH", .none),
   (str "DEFAULT_SASL_FATAL_DOWNGRADE_CHECK", .flag true), (str "DEFAULT_CRITICALITY", .flag false),
   (str "DEFAULT_VALIDATORS", .none), (str "DEFAULT_WARN_EMPTY_LIST", .flag false),
   (str "DEFAULT_ERROR_EMPTY_LIST", .flag false), (str "DEFAULT_IGNORE_EMPTY_LIST", .flag true),
   (str "DEFAULT_FILTER_SYNTAX", .syn .unified), (str "DEFAULT_BUILT_IN_EXTENSIONS_ONLY", .flag false)]

/-- The settings a connection works with: for each parameter the argument, or the class attribute when the argument is absent or `None`.
base.py:229-273 -/
def settings (g : Globals) (kw : PDict Str CVal) : List (Str × CVal) :=
  ctorParams.map fun (p, d) => (p, match kw.get? p with
    | some .none | Option.none => (g.get? d).getD .none
    | some v => v)

/-- What the library does on behalf of `create_connection`. -/
inductive Call where
  | construct (settings : List (Str × CVal))
  | startTls
  | simpleBind (kw : PDict Str Str)
  | saslBind (kw : PDict Str Str)
  | obj (relative : Bool) (kw : PDict Str CVal)
  deriving DecidableEq, Repr

/-- config.py:17-29; `mk`: importing the class named by a string (`rsplit`, import and lookup may raise) and instantiating it. -/
def validatorMapper (mk : Str → Except Err Nat) : List VItem → Except Err (List VItem)
  | [] => .ok []
  | .name s :: l =>
    match mk s with
    | .error e => .error e
    | .ok n =>
      match validatorMapper mk l with
      | .error e => .error e
      | .ok r => .ok (.inst n :: r)
  | .inst n :: l =>
    match validatorMapper mk l with
    | .error e => .error e
    | .ok r => .ok (.inst n :: r)
  | .junk :: _ => .error .typeError

/-- `_validator_mapper` on any value: iterating a non-empty string meets one-letter names, for which `rsplit` yields one part. -/
def mapValidators (mk : Str → Except Err Nat) : CVal → Except Err CVal
  | .vals l => (validatorMapper mk l).map .vals
  | .text [] => .ok (.vals [])
  | .text _ => .error .valueError
  | _ => .error .typeError

/-- `conn_config_dict.pop(key, False)`, config.py:168-170 -/
def popKey (d : PDict Str CVal) (k : Str) : CVal × PDict Str CVal := ((d.get? k).getD (.flag false), d.erase k)

/-- config.py:173-176: the mappers write their results into the caller's dictionary. -/
def mapConn (up : Str → Str) (mk : Str → Except Err Nat) (d : PDict Str CVal) : Except Err Unit × PDict Str CVal :=
  let step2 (d : PDict Str CVal) : Except Err Unit × PDict Str CVal :=
    match d.get? (str "default_filter_syntax") with
    | .none => (.ok (), d)
    | some v =>
      match filterSyntaxString up v with
      | .error e => (.error e, d)
      | .ok w => (.ok (), d.set (str "default_filter_syntax") w)
  match d.get? (str "validators") with
  | .none => step2 d
  | some v =>
    match mapValidators mk v with
    | .error e => (.error e, d)
    | .ok w => step2 (d.set (str "validators") w)

/-- one call: it is made, and its outcome is the environment's -/
def doCall (env : Call → Except Err Unit) (log : List Call) (c : Call) : Except Err Unit × List Call := (env c, log ++ [c])

/-- `ldap.simple_bind(**v)` / `ldap.sasl_bind(**v)` for a truthy `v`: a value that is not a dictionary raises `TypeError`. -/
def bindCall (env : Call → Except Err Unit) (log : List Call) (mkCall : PDict Str Str → Call) : CVal → Except Err Unit × List Call
  | .dict kw => doCall env log (mkCall kw)
  | _ => (.error .typeError, log)

/-- config.py:99-114; the scope text in the caller's dictionary is replaced by the constant. -/
def createObject (env : Call → Except Err Unit) (log : List Call) (d : PDict Str CVal) : Except Err Unit × List Call × PDict Str CVal :=
  if (d.get? (str "rdn")).isSome && (d.get? (str "dn")).isSome then (.error .typeError, log, d)
  else if !((d.get? (str "rdn")).isSome || (d.get? (str "dn")).isSome) then (.error .typeError, log, d)
  else
    let relative := (d.get? (str "rdn")).isSome
    let mapped : Except Err (PDict Str CVal) := match d.get? (str "relative_search_scope") with
      | .none => .ok d
      | some (.text s) =>
        match scopeOfString s with
        | .error e => .error e
        | .ok x => .ok (d.set (str "relative_search_scope") (.scope x))
      | some _ => .error .attributeError
    match mapped with
    | .error e => (.error e, log, d)
    | .ok d =>
      if (d.get? (str "tag")).isSome then
        let (r, log) := doCall env log (.obj relative d)
        (r, log, d)
      else (.error .typeError, log, d)

/-- config.py:184-185 -/
def createObjects (env : Call → Except Err Unit) (log : List Call) : List (PDict Str CVal) → Except Err Unit × List Call × List (PDict Str CVal)
  | [] => (.ok (), log, [])
  | d :: ds =>
    match createObject env log d with
    | (.error e, log, d') => (.error e, log, d' :: ds)
    | (.ok (), log, d') =>
      let (r, log, ds') := createObjects env log ds
      (r, log, d' :: ds')

/-- A configuration dictionary with its four optional sections. -/
structure Cfg where
  global : Option (PDict Str CVal) := .none
  extensions : Option (List Str) := .none
  connection : Option (PDict Str CVal) := .none
  objects : Option (List (PDict Str CVal)) := .none
  deriving DecidableEq, Repr

/-- config.py:167-186 `create_connection` on the `connection` and `objects` sections: outcome, calls made, and both sections afterwards.
An unknown constructor keyword raises `TypeError` (base.py:220-224). -/
def createConnection (up : Str → Str) (mk : Str → Except Err Nat) (env : Call → Except Err Unit) (g : Globals)
    (conn : PDict Str CVal) (objs : List (PDict Str CVal)) : Except Err Unit × List Call × PDict Str CVal × List (PDict Str CVal) :=
  let (tls, d) := popKey conn (str "start_tls")
  let (simple, d) := popKey d (str "simple_bind")
  let (sasl, d) := popKey d (str "sasl_bind")
  if simple.truthy && sasl.truthy then (.error .typeError, [], d, objs)
  else
    match mapConn up mk d with
    | (.error e, d) => (.error e, [], d, objs)
    | (.ok (), d) =>
      if d.all (fun kv => (ctorParams.map Prod.fst).contains kv.1) = false then (.error .typeError, [], d, objs)
      else
        match doCall env [] (.construct (settings g d)) with
        | (.error e, log) => (.error e, log, d, objs)
        | (.ok (), log) =>
          match (if tls.truthy then doCall env log .startTls else (.ok (), log)) with
          | (.error e, log) => (.error e, log, d, objs)
          | (.ok (), log) =>
            match (if simple.truthy then bindCall env log .simpleBind simple else (.ok (), log)) with
            | (.error e, log) => (.error e, log, d, objs)
            | (.ok (), log) =>
              match (if sasl.truthy then bindCall env log .saslBind sasl else (.ok (), log)) with
              | (.error e, log) => (.error e, log, d, objs)
              | (.ok (), log) =>
                let (r, log, objs') := createObjects env log objs
                (r, log, d, objs')

/-- config.py:84-96 `activate_extensions`: `LDAP` has no attribute `activate_extension`. -/
def activateExtensions : List Str → Except Err Unit
  | [] => .ok ()
  | _ :: _ => .error .attributeError

/-- the result of `load_config_dict`: outcome (`true`: a connection is returned), calls, the class attributes, and the dictionary
afterwards -/
structure Loaded where
  result : Except Err Bool
  calls : List Call
  globals : Globals
  cfg : Cfg
  deriving DecidableEq

/-- config.py:240-241: the optional `global` section -/
def globalStep (up : Str → Str) (g : Globals) : Option (PDict Str CVal) → Except Err Unit × Globals
  | .none => (.ok (), g)
  | some c => setGlobal up g c

/-- config.py:240-245 `load_config_dict` -/
def load (up : Str → Str) (mk : Str → Except Err Nat) (env : Call → Except Err Unit) (g : Globals) (cfg : Cfg) : Loaded :=
  match globalStep up g cfg.global with
  | (.error e, g) => ⟨.error e, [], g, cfg⟩
  | (.ok (), g) =>
    match (match cfg.extensions with | .none => Except.ok () | some l => activateExtensions l) with
    | .error e => ⟨.error e, [], g, cfg⟩
    | .ok () =>
      match cfg.connection with
      | .none => ⟨.ok false, [], g, cfg⟩
      | some conn =>
        let (r, log, conn', objs') := createConnection up mk env g conn (cfg.objects.getD [])
        ⟨r.map (fun _ => true), log, g, { cfg with connection := some conn', objects := cfg.objects.map (fun _ => objs') }⟩

/-- the connection's default filter syntax as `search` will compare it (base.py:699-706) -/
def synOf : CVal → FSyntax
  | .syn x => x
  | _ => .other

end Laurelin.Config
