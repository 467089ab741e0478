import Verif.Model.Attrs
import Verif.Model.Strings
/-!
# The netgroups extension (laurelin/extensions/netgroups.py)

Not modelled: the schema definitions (netgroups.py:97-121), the tagged base object (`self.parent.tag(TAG)`, see Model/Tags.lean) and `find` on it
(Model/Dn.lean): looking a netgroup up by name is the parameter `find`. Member tuples hold strings or `None`.
-/
namespace Laurelin
namespace Netgroups

abbrev tripleAttr : Str := str "nisNetgroupTriple"
abbrev memberAttr : Str := str "memberNisNetgroup"

/-- the end of `_TRIPLE_RE`: the text after the second comma is `[^)]*`, then `\)`, then `$`, which matches at the end and before a final newline -/
def tripleEnd (s : Str) : Option Str :=
  match splitFirst ')' s with
  | some (d, []) => some d
  | some (d, ['\n']) => some d
  | _ => none

/-- `TRIPLE_RE.match` (netgroups.py:89,405): the three groups. `[^,]*` cannot run past a comma, nor `[^)]*` past a parenthesis, so there is at most one way to match. -/
def tripleFields : Str → Option (Str × Str × Str)
  | '(' :: s =>
    match splitFirst ',' s with
    | none => none
    | some (h, s) =>
      match splitFirst ',' s with
      | none => none
      | some (u, s) =>
        match tripleEnd s with
        | none => none
        | some d => some (h, u, d)
  | _ => none

/-- `_is_triple`, netgroups.py:412-413 -/
def isTriple (s : Str) : Bool := (tripleFields s).isSome

/-- `_nis_netgroup_triple`, netgroups.py:416-423: absent fields become empty. -/
def mkTriple (host user domain : Option Str) : Str :=
  str "(" ++ host.getD [] ++ str "," ++ user.getD [] ++ str "," ++ domain.getD [] ++ str ")"

/-- An element of a member list: a string, a tuple of strings and `None`s, anything else. -/
inductive Member where
  | text (s : Str)
  | tuple (l : List (Option Str))
  | other
  deriving DecidableEq, Repr

/-- The `members` argument: a list, or a single entry. -/
inductive Members where
  | list (l : List Member)
  | one (m : Member)
  deriving DecidableEq, Repr

/-- netgroups.py:438-439 and 468-469 -/
def Members.toList : Members → List Member
  | .list l => l
  | .one m => [m]

/-- `_member_user_list_to_attrs`, the body of the loop up to the attribute and the value (netgroups.py:442-460); `member[0]` raises `IndexError` on ''. -/
def userMember (domain : Option Str) : Member → Except Err (Str × Str)
  | .text [] => .error .indexError
  | .text (c :: s) =>
    if c = '+' then .ok (memberAttr, s)
    else if isTriple (c :: s) then .ok (tripleAttr, c :: s)
    else .ok (tripleAttr, mkTriple none (some (c :: s)) domain)
  | .tuple l =>
    match l with
    | [_] => .error .valueError
    | [h, u] => .ok (tripleAttr, mkTriple h u domain)
    | [h, u, d] => .ok (tripleAttr, mkTriple h u d)
    | _ => .error .valueError
  | .other => .error .typeError

/-- `_member_host_list_to_attrs`, the body of the loop (netgroups.py:472-490) -/
def hostMember (domain : Option Str) : Member → Except Err (Str × Str)
  | .text [] => .error .indexError
  | .text (c :: s) =>
    if c = '+' then .ok (memberAttr, s)
    else if isTriple (c :: s) then .ok (tripleAttr, c :: s)
    else .ok (tripleAttr, mkTriple (some (c :: s)) none domain)
  | .tuple l =>
    match l with
    | [h] => .ok (tripleAttr, mkTriple h none domain)
    | [h, u] => .ok (tripleAttr, mkTriple h u domain)
    | [h, u, d] => .ok (tripleAttr, mkTriple h u d)
    | _ => .error .valueError
  | .other => .error .typeError

/-- netgroups.py:461-463 and 491-493: `attrs[attr].append(member)`, creating the list first -/
def addValue (attrs : PDict Str (List Str)) (a v : Str) : PDict Str (List Str) :=
  match attrs.get? a with
  | none => attrs.set a [v]
  | some l => attrs.set a (l ++ [v])

/-- the loop of both functions (netgroups.py:440-464, 470-494) -/
def membersLoop (f : Member → Except Err (Str × Str)) : PDict Str (List Str) → List Member → Except Err (PDict Str (List Str))
  | attrs, [] => .ok attrs
  | attrs, m :: ms =>
    match f m with
    | .error e => .error e
    | .ok (a, v) => membersLoop f (addValue attrs a v) ms

/-- `_member_user_list_to_attrs`, netgroups.py:437-464; its result is handed to `add_attrs`, `replace_attrs` or `delete_attrs` (231-289). -/
def userAttrs (ms : Members) (domain : Option Str) : Except Err (PDict Str (List Str)) := membersLoop (userMember domain) [] ms.toList

/-- `_member_host_list_to_attrs`, netgroups.py:467-494 -/
def hostAttrs (ms : Members) (domain : Option Str) : Except Err (PDict Str (List Str)) := membersLoop (hostMember domain) [] ms.toList

/-- which group of the triple `m.group(index)` reads: 1 is the host, 2 the user -/
inductive Field where
  | host | user
  deriving DecidableEq, Repr

def Field.of : Field → Str × Str × Str → Str
  | .host, t => t.1
  | .user, t => t.2.1

/-- the loop of `_extract_triple_field`, netgroups.py:428-434 -/
def extractLoop (fld : Field) : List Str → Except Err (List Str)
  | [] => .ok []
  | t :: ts =>
    match tripleFields t with
    | none => .error .ldapError
    | some q =>
      match extractLoop fld ts with
      | .error e => .error e
      | .ok l => .ok (fld.of q :: l)

/-- A netgroup object: its attributes. -/
abbrev Ng := AttrsDict Str

variable (lower : Str → Str)

/-- `_extract_triple_field`, netgroups.py:426-434 (`ng_obj.get(…, [])`) -/
def extractField (fld : Field) (ng : Ng) : Except Err (List Str) := extractLoop fld ((CIDict.get lower ng tripleAttr).getD [])

/-- `get_obj_users` and `get_obj_hosts` with the `get_users` / `get_hosts` they call on every member netgroup (netgroups.py:171-229).
`depth` is what is left of Python's recursion limit (in nested calls); when it is used up Python raises `RecursionError`. -/
def getObj (find : Str → Except Err Ng) (fld : Field) : Nat → Ng → Bool → Except Err (List Str)
  | 0, _, _ => .error .recursion
  | depth + 1, ng, recursive =>
    match extractField lower fld ng with
    | .error e => .error e
    | .ok names =>
      if recursive && AttrsDict.has lower ng memberAttr then
        match CIDict.getItem lower ng memberAttr with
        | .error e => .error e
        | .ok members => go (fun g => match find g with
            | .error e => .error e
            | .ok ng => getObj find fld depth ng true) names members
      else .ok names
where
  /-- netgroups.py:182-183: `users += self.get_users(member, True)` for every member -/
  go (expand : Str → Except Err (List Str)) : List Str → List Str → Except Err (List Str)
    | names, [] => .ok names
    | names, m :: ms =>
      match expand m with
      | .error e => .error e
      | .ok l => go expand (names ++ l) ms

/-- `get_users` / `get_hosts`, netgroups.py:186-199, 216-229 -/
def getNames (find : Str → Except Err Ng) (fld : Field) (depth : Nat) (cn : Str) (recursive : Bool) : Except Err (List Str) :=
  match find cn with
  | .error e => .error e
  | .ok ng => getObj lower find fld depth ng recursive

/-- `get_users` / `get_hosts` of the extension of objects (netgroups.py:307-327): the extension object itself is passed where the netgroup is
expected; it has no attribute but `parent` (extensible/user_base.py:20-26), so reading `.get` of it raises `AttributeError`. -/
def objGetNames (hasClass : Bool) : Except Err (List Str) := if hasClass then .error .attributeError else .error .runtimeError

/-- `_netgroup_filter`, netgroups.py:408-409 -/
def ngFilter (f : Str) : Str := str "(&(objectClass=nisNetgroup)" ++ f ++ str ")"

end Netgroups
end Laurelin
