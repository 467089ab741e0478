import Verif.Model.SearchRequest
/-!
# LDAP URLs (laurelin/ldap/base.py:1661-1741)

`urlparse` (Python's standard library, not code of the repo) is modelled for texts without `[` and `]`, and without its refusal of hosts whose
NFKC form contains URL delimiters. Its `;params` splitting concerns only schemes LDAP does not use and the empty scheme; it is not modelled.
-/
namespace Laurelin

/-- Python's `str.lower` on ASCII text. (No other character has a lower-case form made of the letters compared with below.) -/
def asciiLower (s : Str) : Str := s.map Char.toLower

/-- urllib.parse `scheme_chars` -/
def schemeChar (c : Char) : Bool := c.isAlpha || c.isDigit || c == '+' || c == '-' || c == '.'

/-- `s.split(c, 1)`, the separator part being empty when there is none -/
def cutAt (c : Char) (s : Str) : Str × Str := (splitFirst c s).getD (s, [])

/-- What `urlparse` gives: scheme, netloc, path, query. -/
structure UrlParts where
  scheme : Str
  netloc : Str
  path : Str
  query : Str
  deriving DecidableEq, Repr

/-- builtin `urllib.parse.urlparse` -/
def urlParse (url : Str) : UrlParts :=
  let url := (url.dropWhile (fun c => c.toNat ≤ 32)).filter (fun c => !(c == '\t' || c == '\r' || c == '\n'))
  let (scheme, url) := match splitFirst ':' url with
    | some (c :: t, rest) => if c.isAlpha && t.all schemeChar then (asciiLower (c :: t), rest) else ([], url)
    | _ => ([], url)
  let (netloc, url) :=
    if startsWith url (str "//") then ((url.drop 2).takeWhile (fun c => !(c == '/' || c == '?' || c == '#')), (url.drop 2).dropWhile (fun c => !(c == '/' || c == '?' || c == '#')))
    else ([], url)
  let url := (cutAt '#' url).1
  let (path, query) := cutAt '?' url
  ⟨scheme, netloc, path, query⟩

/-- constants.py:74-85 `Scope.string` -/
def scopeOfString (s : Str) : Except Err Scope :=
  let s := asciiLower s
  if s = str "base" then .ok .base
  else if s = str "one" then .ok .one
  else if s = str "sub" then .ok .sub
  else .error .valueError

/-- constants.py:87-97 `Scope.constant` -/
def scopeText : Scope → Except Err Str
  | .base => .ok (str "base")
  | .one => .ok (str "one")
  | .sub => .ok (str "sub")
  | .other => .error .valueError

/-- base.py:1661-1675: the attributes of an `LDAPURI`; `starttls = none`: the attribute was never set. -/
structure LdapUri where
  scheme : Str
  netloc : Str
  hostUri : Str
  dn : Str
  attrs : List Str
  scope : Scope
  filter : Str
  starttls : Option Bool
  deriving DecidableEq, Repr

/-- base.py:1706-1718: the loop over the extensions; `tls`: what was set so far. A non-critical unknown extension only warns. -/
def uriExts : List Str → Option Bool → Except Err (Option Bool)
  | [], tls => .ok tls
  | e :: es, tls =>
    let critical := startsWith e (str "!")
    let name := if critical then e.drop 1 else e
    if name = str "StartTLS" then uriExts es (some true)
    else if critical then .error .ldapError
    else uriExts es tls

/-- base.py:1683-1720 `LDAPURI.__init__` -/
def ldapUri (uri : Str) : Except Err LdapUri :=
  let p := urlParse uri
  let params := pySplit '?' p.query
  let field (i : Nat) : Str := (params[i]?).getD []
  let attrs := if field 0 ≠ [] then pySplit ',' (field 0) else [['*']]
  match (if field 1 ≠ [] then scopeOfString (field 1) else .ok .base) with
  | .error e => .error e
  | .ok scope =>
    let filter := if field 2 ≠ [] then field 2 else str "(objectClass=*)"
    match (if field 3 ≠ [] then uriExts (pySplit ',' (field 3)) none else .ok (some false)) with
    | .error e => .error e
    | .ok tls => .ok ⟨p.scheme, p.netloc, p.scheme ++ str "://" ++ p.netloc, p.path.drop 1, attrs, scope, filter, tls⟩

/-- The state in which `LDAPURI.search` leaves the connection it opened. -/
inductive UriConn where
  | none | opened | closed
  deriving DecidableEq, Repr

/-- base.py:1722-1735 `LDAPURI.search`: open a private connection, StartTLS if asked, send the search, unbind. `connect`, `tls`, `send`,
`unbind`: outcomes of those calls. The base object, scope, filter text and attributes of the search are the URI's. -/
def uriSearch (u : LdapUri) (connect tls : Except Err Unit) (send : SearchArgs Unit → Except Err Unit) (unbind : Except Err Unit) :
    UriConn × Except Err (SearchArgs Unit) :=
  let args : SearchArgs Unit := { base := u.dn, scope := u.scope, filter := some u.filter, attrs := some u.attrs }
  let rest : UriConn × Except Err (SearchArgs Unit) :=
    match send args with
    | .error e => (.opened, .error e)
    | .ok _ =>
      match unbind with
      | .error e => (.opened, .error e)
      | .ok _ => (.closed, .ok args)
  match connect with
  | .error e => (.none, .error e)
  | .ok _ =>
    match u.starttls with
    | none => (.opened, .error .attributeError)
    | some false => rest
    | some true =>
      match tls with
      | .error e => (.opened, .error e)
      | .ok _ => rest

end Laurelin
