import Verif.Model.SearchRequest
/-!
RFC 4516: the text of an LDAP URL and what it denotes. Percent-encoding (section 2.1) is `pctPlain`/`pctDecode`.
-/
namespace Laurelin.Spec

/-- what an LDAP URL denotes: `exts` are the extensions with their criticality -/
structure LdapUrl where
  dn : Str
  attrs : List Str
  scope : Scope
  filter : Str
  exts : List (Bool × Str)

/-- the i-th of the fields after the DN; an absent field is an empty one -/
def urlField (fs : List Str) (i : Nat) : Str := (fs[i]?).getD []

/-- items separated by commas -/
def commaList : List Str → Str
  | [] => []
  | [x] => x
  | x :: y :: l => x ++ ',' :: commaList (y :: l)

/-- the text of an extension: `!` marks a critical one -/
def extText (e : Bool × Str) : Str := if e.1 then '!' :: e.2 else e.2

/-- ASCII letters compared without case -/
def sameLetters (s t : Str) : Prop := s.map Char.toLower = t

/-- the fields `attrs?scope?filter?extensions` (any number of trailing ones omitted) denote `u`: RFC 4516 section 2, with its defaults -/
structure FieldsDenote (fs : List Str) (u : LdapUrl) : Prop where
  count : fs.length ≤ 4
  attrs : (urlField fs 0 = [] ∧ u.attrs = [['*']]) ∨ (urlField fs 0 ≠ [] ∧ urlField fs 0 = commaList u.attrs ∧ u.attrs ≠ [] ∧ ∀ a ∈ u.attrs, ',' ∉ a)
  scope : (urlField fs 1 = [] ∧ u.scope = .base) ∨ (sameLetters (urlField fs 1) (str "base") ∧ u.scope = .base) ∨
    (sameLetters (urlField fs 1) (str "one") ∧ u.scope = .one) ∨ (sameLetters (urlField fs 1) (str "sub") ∧ u.scope = .sub)
  filter : (urlField fs 2 = [] ∧ u.filter = str "(objectClass=*)") ∨ (urlField fs 2 ≠ [] ∧ u.filter = urlField fs 2)
  exts : (urlField fs 3 = [] ∧ u.exts = []) ∨
    (urlField fs 3 ≠ [] ∧ urlField fs 3 = commaList (u.exts.map extText) ∧ u.exts ≠ [] ∧ ∀ e ∈ u.exts, ',' ∉ e.2 ∧ e.2.head? ≠ some '!')

/-- characters that stand for themselves in the part of a URL after the host: not a delimiter `?` or `#`, not the percent sign, and neither space
nor control -/
def urlPlain (s : Str) : Prop := ∀ c ∈ s, c ≠ '?' ∧ c ≠ '#' ∧ c ≠ '%' ∧ 32 < c.toNat

/-- a URL text: scheme, host (and port), DN and fields -/
def urlText (scheme host dn : Str) (fs : List Str) : Str := scheme ++ str "://" ++ host ++ str "/" ++ dn ++ (fs.map ('?' :: ·)).flatten

end Laurelin.Spec
