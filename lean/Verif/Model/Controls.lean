import Verif.Model.Basic
/-!
# Request and response controls (laurelin/ldap/controls.py)

`V`: the values a caller may pass as keyword arguments.  `R`: what a response control's `handle` returns.
Wire values are byte strings (`List Nat`). Warnings and messages are dropped.
-/
namespace Laurelin.Controls
variable {V R : Type}

/-- The class attribute `method`: a tuple of names, or a plain string (then Python's `in` is a substring test). controls.py:98 -/
inductive Methods where
  | names (l : List Str)
  | text (s : Str)
  deriving DecidableEq, Repr

/-- Python's `x in s` for strings. -/
def isSubstr (x : Str) : Str → Bool
  | [] => x.isEmpty
  | c :: s => x.isPrefixOf (c :: s) || isSubstr x s

/-- `method in ctrl.method`, controls.py:37 -/
def Methods.has (m : Methods) (x : Str) : Bool :=
  match m with
  | .names l => l.contains x
  | .text s => isSubstr x s

/-- `not cls.method`, controls.py:140 -/
def Methods.empty : Methods → Bool
  | .names l => l.isEmpty
  | .text s => s.isEmpty

/-- A `Control` class. `prepare` is the part of a `prepare` override that runs before the base method (identity if not
overridden) and yields the byte string handed to it; `handle` decodes a response value (`none`: the value is absent). controls.py:82-132 -/
structure Cls (V R : Type) where
  method : Methods := .names []
  keyword : Str := []
  responseAttr : Str := []
  requestOid : Str := []
  responseOid : Str := []
  prepare : V → Except Err (List Nat)
  handle : Option (List Nat) → Except Err R

/-- A control as it goes on the wire (rfc4511 `Control`). -/
structure Wire where
  oid : Str
  critical : Bool
  value : Option (List Nat)
  deriving DecidableEq, Repr

/-- `Control.prepare`: the value is only set when it is truthy. controls.py:112-118 -/
def basePrepare (oid : Str) (v : List Nat) (crit : Bool) : Wire :=
  ⟨oid, crit, if v.isEmpty then none else some v⟩

/-- A keyword argument: plain, or wrapped in `critical(...)` / `optional(...)`. controls.py:161-170 -/
inductive Kwd (V : Type) where
  | plain (v : V)
  | critical (v : V)
  | optional (v : V)
  deriving DecidableEq, Repr

/-- `ctrl_value` and `criticality` after controls.py:40-47 -/
def Kwd.unwrap (dflt : Bool) : Kwd V → V × Bool
  | .plain v => (v, dflt)
  | .critical v => (v, true)
  | .optional v => (v, false)

/-- The module-level registries, controls.py:13-15 -/
structure Reg (V R : Type) where
  byKwd : PDict Str (Cls V R) := []
  byOid : PDict Str (Cls V R) := []
  resp : PDict Str (Cls V R) := []

/-- `_reserved_kwds`, controls.py:18 -/
def reserved : List Str :=
  [str "attr", str "attrs", str "attrs_dict", str "attrs_only", str "base_dn", str "clean_attr", str "current",
   str "deref_aliases", str "dn", str "fetch_result_refs", str "filter", str "filter_syntax", str "follow_referrals",
   str "ldap_conn", str "limit", str "mech", str "mid", str "modlist", str "new_parent", str "new_rdn", str "oid",
   str "password", str "rdn_attr", str "relative_search_scope", str "require_success", str "scope", str "search_timeout",
   str "self", str "tag", str "username", str "value"]

/-- The request half of `Control.register`, controls.py:137-149 -/
def Reg.registerRequest (r : Reg V R) (c : Cls V R) : Except Err (Reg V R) :=
  if c.requestOid.isEmpty then .ok r
  else if c.method.empty then .error .valueError
  else if c.keyword.isEmpty then .error .valueError
  else if c.keyword ∈ reserved then .error .extension
  else if (r.byKwd.get? c.keyword).isSome then .error .extension
  else if (r.byOid.get? c.requestOid).isSome then .error .extension
  else .ok { r with byKwd := r.byKwd.set c.keyword c, byOid := r.byOid.set c.requestOid c }

/-- The response half, controls.py:151-156 -/
def Reg.registerResponse (r : Reg V R) (c : Cls V R) : Except Err (Reg V R) :=
  if c.responseOid.isEmpty then .ok r
  else if c.responseAttr.isEmpty then .error .valueError
  else if (r.resp.get? c.responseOid).isSome then .error .extension
  else .ok { r with resp := r.resp.set c.responseOid c }

/-- `Control.register`, controls.py:133-156: the registries keep what the first half stored when the second raises. -/
def Reg.register (r : Reg V R) (c : Cls V R) : Except Err Unit × Reg V R :=
  match r.registerRequest c with
  | .error e => (.error e, r)
  | .ok r1 =>
    match r1.registerResponse c with
    | .error e => (.error e, r1)
    | .ok r2 => (.ok (), r2)

/-- A sequence of registrations. -/
def Reg.registerAll (r : Reg V R) : List (Cls V R) → Reg V R
  | [] => r
  | c :: cs => ((r.register c).2).registerAll cs

/-- `get_control`, controls.py:21-22 -/
def Reg.getControl (r : Reg V R) (oid : Str) : Except Err (Cls V R) :=
  match r.byOid.get? oid with
  | some c => .ok c
  | none => .error .keyError

/-- The loop of `process_kwds` (controls.py:34-51): keys still to visit, the caller's dict, the controls so far. -/
def processLoop (byKwd : PDict Str (Cls V R)) (method : Str) (supported : List Str) (dflt : Bool) :
    List Str → PDict Str (Kwd V) → List Wire → Except Err (List Wire) × PDict Str (Kwd V)
  | [], kwds, ws => (.ok ws, kwds)
  | k :: ks, kwds, ws =>
    match byKwd.get? k with
    | none => processLoop byKwd method supported dflt ks kwds ws
    | some c =>
      if c.method.has method = false then (.error .ldapError, kwds)
      else
        match kwds.get? k with
        | none => (.error .keyError, kwds)
        | some kv =>
          let kwds := kwds.erase k
          let (v, crit) := kv.unwrap dflt
          if crit && !supported.contains c.requestOid then (.error .ldapSupport, kwds)
          else
            match c.prepare v with
            | .error e => (.error e, kwds)
            | .ok b => processLoop byKwd method supported dflt ks kwds (ws ++ [basePrepare c.requestOid b crit])

/-- `process_kwds`, controls.py:25-57: the controls (`None` if there are none) or the exception, and the caller's dict afterwards. -/
def processKwds (r : Reg V R) (method : Str) (kwds : PDict Str (Kwd V)) (supported : List Str) (dflt final : Bool) :
    Except Err (Option (List Wire)) × PDict Str (Kwd V) :=
  match processLoop r.byKwd method supported dflt kwds.keys kwds [] with
  | (.error e, kwds) => (.error e, kwds)
  | (.ok ws, kwds) =>
    if final && kwds.length > 0 then (.error .typeError, kwds)
    else (.ok (if ws.isEmpty then none else some ws), kwds)

/-- An object that receives response attributes: the names it has anyway (methods and fields), and those set so far. -/
structure Target (R : Type) where
  own : List Str
  got : PDict Str R

/-- `hasattr(obj, name)` -/
def Target.has (t : Target R) (a : Str) : Bool := t.own.contains a || (t.got.get? a).isSome

/-- `handle_response`, controls.py:60-79. An exception leaves the attributes set so far. -/
def handleResponse (r : Reg V R) (t : Target R) : List Wire → Except Err Unit × Target R
  | [] => (.ok (), t)
  | w :: ws =>
    match r.resp.get? w.oid with
    | none => (.error .extension, t)
    | some c =>
      match c.handle w.value with
      | .error e => (.error e, t)
      | .ok v =>
        if t.has c.responseAttr then (.error .extension, t)
        else handleResponse r { t with got := t.got.set c.responseAttr v } ws

end Laurelin.Controls
