/-!
Shared vocabulary of the model: strings, Python exceptions as values, and Python's built-in
insertion-ordered `dict`.
-/
namespace Laurelin

/-- Python `str`: a sequence of code points. -/
abbrev Str := List Char

/-- `str "ab"` is notation for the literal list `['a', 'b']` (expanded when the file is elaborated, so
that evaluation in the kernel never meets a `String`). -/
macro:max "str " x:str : term => do
  let cs := (x.getString.toList.map (fun c => Lean.Syntax.mkCharLit c)).toArray
  `(([$cs,*] : List Char))

/-- The Python exceptions the modelled code raises (laurelin/ldap/exceptions.py and builtins).
Messages are dropped. -/
inductive Err where
  | keyError | valueError | typeError | indexError | attributeError | runtimeError
  | ldapError | ldapValidation | ldapSchema | invalidSyntax | prohibited
  | tagError | noResults | multipleResults | unbound | abandon | unsolicited
  | connection | saslError | ldapSupport | extension | ldapUnicode | loginError
  | notFound | transaction | invalidCredentials | recursion | osError | alreadyBound | unexpectedResponse | asn1Error
  deriving DecidableEq, Repr, Inhabited

deriving instance DecidableEq for Except

/-- Python's builtin `dict` (insertion ordered since CPython 3.7): association list whose keys are
kept distinct by `set`. Builtin semantics, not code of the repo. -/
abbrev PDict (K V : Type) := List (K × V)

namespace PDict
variable {K V : Type} [DecidableEq K]

/-- `d.get(k)` -/
def get? : PDict K V → K → Option V
  | [], _ => none
  | (a, v) :: t, k => if a = k then some v else get? t k

/-- `d[k] = v`: overwrite in place (position kept), else append. -/
def set : PDict K V → K → V → PDict K V
  | [], k, v => [(k, v)]
  | (a, w) :: t, k, v => if a = k then (a, v) :: t else (a, w) :: set t k v

/-- `del d[k]` when present (no-op otherwise; callers check). -/
def erase : PDict K V → K → PDict K V
  | [], _ => []
  | (a, w) :: t, k => if a = k then t else (a, w) :: erase t k

/-- `list(d)` -/
def keys (d : PDict K V) : List K := d.map Prod.fst

end PDict
end Laurelin
