import Verif.Model.Strings
/-!
Small utilities: laurelin/ldap/utils.py, laurelin/ldap/__init__.py, and the certificate check of laurelin/ldap/net.py.
-/
namespace Laurelin

/-- The loop of `find_closing_paren`, utils.py:19-30: `parens > 0`, `i` is the index already looked at, and the
text after it remains; `none` is the caught `IndexError`. -/
def parenScan (parens i : Nat) : Str → Option Nat
  | [] => none
  | c :: t =>
    let parens := if c = '(' then parens + 1 else if c = ')' then parens - 1 else parens
    if parens = 0 then some (i + 1) else parenScan parens (i + 1) t

/-- `find_closing_paren`, utils.py:17-31. `text[0]` of an empty string raises outside the `try`. -/
def findClosingParen : Str → Except Err Nat
  | [] => .error .indexError
  | c :: t =>
    if c ≠ '(' then .error .valueError
    else match parenScan 1 0 t with
      | some i => .ok i
      | none => .error .valueError

/-- utils.py:38 `[^0-9+]` complement -/
def isPhoneChar (c : Char) : Bool := ('0' ≤ c && c ≤ '9') || c == '+'

/-- `validate_phone_number`, utils.py:34-50. `isdigit` is applied to a string over `0-9+` only, where it means
non-empty and no plus. -/
def validatePhone (s : Str) : Bool :=
  let s := s.filter isPhoneChar
  let s := if startsWith s ['+'] then s.drop 1 else s
  if s.isEmpty || s.any (· == '+') then false
  else decide (7 ≤ s.length) && decide (s.length ≤ 15)

/-- `dc`, laurelin/ldap/__init__.py:31-33 -/
def dcOf (domain : Str) : Str := pyJoin [','] ((pySplit '.' domain).map (fun l => str "dc=" ++ l))

/-- `i.split('=')[1]` -/
def afterEq (i : Str) : Except Err Str :=
  match pySplit '=' i with
  | _ :: x :: _ => .ok x
  | _ => .error .indexError

/-- `domain`, laurelin/ldap/__init__.py:36-38 -/
def domainOf (dc : Str) : Except Err Str := do
  let l ← (pySplit ',' dc).mapM afterEq
  pure (pyJoin ['.'] l)

/-- The loop of `check_hostname`, net.py:229-238: the final value of `valid`. -/
def sanValid (host : Str) : List (Str × Str) → Bool
  | [] => false
  | (type, value) :: l =>
    let valid := if type = str "DNS" && startsWith value (str "*.") then endsWith host (value.drop 1) else host == value
    if valid then true else sanValid host l

/-- `check_hostname`, net.py:215-241; `sans` is `cert.get('subjectAltName', [])`. -/
def checkHostname (host cn : Str) (sans : List (Str × Str)) : Except Err Unit :=
  if host = cn then .ok ()
  else if sanValid host sans then .ok () else .error .connection

/-- `dict(pairs)['commonName']`, net.py:208: the last pair of that name wins. -/
def commonName : List (Str × Str) → Except Err Str
  | [] => .error .keyError
  | (k, v) :: l => match commonName l with
    | .ok x => .ok x
    | .error e => if k = str "commonName" then .ok v else .error e

/-- The certificate check at the end of `start_tls`, net.py:206-211. `subject`: the first attribute of each RDN. -/
def verifyCert (host : Str) (verify : Bool) (subject sans : List (Str × Str)) : Except Err Unit :=
  if verify then
    match commonName subject with
    | .error e => .error e
    | .ok cn => checkHostname host cn sans
  else .ok ()

end Laurelin
