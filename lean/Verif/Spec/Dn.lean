import Verif.Spec.Server
/-!
Distinguished names as texts (RFC 4514) and what a server does with a modify DN request (RFC 4511 section 4.9). Independent of the client
code.
-/
namespace Laurelin.Spec

/-- the text of one RDN: a comma only occurs after a backslash that escapes it, and no backslash is left dangling -/
def rdnText : Str → Bool
  | [] => true
  | c :: t =>
    if c = ',' then false
    else if c = '\\' then
      match t with
      | [] => false
      | _ :: u => rdnText u
    else rdnText t

/-- the text of a DN given its RDNs, first the most specific -/
def dnText : List Str → Str
  | [] => []
  | [r] => r
  | r :: r' :: l => r ++ ',' :: dnText (r' :: l)

/-- `s` is the DN with these RDNs -/
def IsDn (s : Str) (rdns : List Str) : Prop := s = dnText rdns ∧ ∀ r ∈ rdns, r ≠ [] ∧ rdnText r = true

/-- RFC 4514 section 2.4: the characters of a value that must be escaped anywhere -/
def dnSpecial (c : Char) : Bool := c ∈ [',', '+', '"', '\\', '<', '>', ';']

def escTail : Str → Str
  | [] => []
  | [' '] => ['\\', ' ']
  | c :: t => if dnSpecial c then '\\' :: c :: escTail t else c :: escTail t

/-- the text of an attribute value inside a DN (section 2.4): specials are escaped, and a space or `#` at the beginning and a space at the end -/
def dnEscape : Str → Str
  | c :: t => if c = ' ' ∨ c = '#' then '\\' :: c :: escTail t else escTail (c :: t)
  | [] => []

/-- the text of an RDN with a single attribute value -/
def avaRdn (a v : Str) : Str := a ++ '=' :: dnEscape v

/-- the new name of an entry: the new RDN below the new superior, or below the old parent when none is given -/
def renamed (rdns : List Str) (newRdn : Str) : Option (List Str) → List Str
  | some parent => newRdn :: parent
  | none => newRdn :: rdns.drop 1

/-- the entry after the name changed from `a=v` to `a'=v'`: with deleteoldrdn the old value is removed; the new value is added unless it is
there -/
def srvRename {V : Type} (lower : Str → Str) (m : Str → V → V → Bool) (e : Entry V) (a : Str) (v : V) (a' : Str) (v' : V) (deleteOld : Bool) : Entry V :=
  let e1 := if deleteOld then e.put lower a (dropFirst (fun x => m a x v) (e (lower a))) else e
  if (e1 (lower a')).any (fun x => m a' x v') then e1 else e1.put lower a' (e1 (lower a') ++ [v'])

end Laurelin.Spec
