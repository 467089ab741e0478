import Verif.Model.ApiPatterns
/-!
# The methods of an object, down to the octets (laurelin/ldap/ldapobject.py:136-241, 306-316, 343-498)

The calls on the connection are those of `Model/Api.lean`; `refresh`, `modify`, `add_attrs`, `replace_attrs`, `delete_attrs` are those of `Model/OverWire.lean`; names and the arguments of `find` are those of
`Model/Dn.lean`. Simplifications: those of these models; the keywords of a call are controls only; a search is iterated at once; a reference handle among search results is not modelled further.
-/
namespace Laurelin
namespace Api
open Codec Asn1 Rfc4511 OverWire

/-- An `LDAPObject` that a connection has made (ldapobject.py:50-59): its DN and its connection are both set to `None` by `delete` (443-444) and otherwise neither is; `relative_search_scope`, `rdn_attr`. -/
structure Obj where
  dn : Option Str
  attrs : AttrsDict AVal
  scope : Scope := .sub
  rdnAttr : Option Str := none

/-- the object as far as names of its children are concerned -/
def Obj.names (o : Obj) : LObj := ⟨o.dn, o.dn.isSome, CIDict.empty, o.scope, o.rdnAttr⟩

/-- the calls, with the defaults of their arguments filled in; `rename` (ldapobject.py:477-486) is `mod_dn` without a parent -/
inductive Method where
  | modify (mods : List (Mod AVal))
  | addAttrs (new : List (Str × List AVal))
  | replaceAttrs (new : List (Str × Vals AVal))
  | deleteAttrs (del : List (Str × Vals AVal))
  | refresh (attrs : List Str)
  | compare (attr value : Str)
  | delete
  | modDn (newRdn : Str) (clean : Bool) (parent : Option Str)
  | move (newDn : Str) (clean : Bool)
  | getChild (rdn : Str) (attrs : Option (List Str))
  | addChild (rdn : Str) (attrs : List (Str × List AVal))
  | deleteChild (rdn : Str)
  | search (filter : Option Str) (attrs : Option (List Str))
  | find (rdn : Str) (attrs : Option (List Str))

/-- what a method returns: nothing (or a response without further contents), the truth of a comparison, objects (`none` is a reference handle) -/
inductive Returned where
  | done
  | truth (b : Bool)
  | objs (l : List (Option Obj))

/-- the connection and the object after a call, and how it ended -/
structure Turn (M S : Type) where
  link : Link M S
  obj : Obj
  result : Except Err Returned

/-- the environment of the object: its methods use the connection's settings (ldapobject.py:343-355) -/
def Env.forObj {V R : Type} (env : Env V R) (strict : Bool) (dn : Str) : OverWire.Env V R :=
  { obj := ⟨env.conn.unbound, env.modValidators, env.opts, env.ctrlsOk, dn, strict⟩, ctrls := env.wire, conn := env.conn, results := env.results, own := env.own, handleOwn := env.handleOwn }

/-- what is raised by an object that has been deleted: `_require_ldap` (ldapobject.py:84-86); `add_attrs` and `delete_attrs` ask the connection for `strict_modify` (366, 393), `replace_attrs` makes its modlist (380)
and `move` splits the DN (497) before that -/
def deadErr : Method → Err
  | .addAttrs _ => .attributeError
  | .deleteAttrs _ => .attributeError
  | .replaceAttrs new =>
    match modlist .replace (new.map (fun kv => (kv.1, RawVals.vals kv.2))) with
    | .error e => e
    | .ok _ => .runtimeError
  | .move newDn _ =>
    match splitFirst ',' newDn with
    | none => .valueError
    | some _ => .runtimeError
  | _ => .runtimeError

/-- the object that a search result is made into, with the settings of the object it was found from (base.py:1583, ldapobject.py:109-112) -/
def Obj.made {R : Type} (lower : Str → Str) (o : Obj) : Search.Item Received.Entry R → Option Obj
  | .entry e _ => some ⟨some e.1, CIDict.update lower CIDict.empty e.2, o.scope, o.rdnAttr⟩
  | .ref _ _ => none

/-- after one of the calls of `Model/OverWire.lean` -/
def Turn.ofAfter {M S : Type} (o : Obj) (a : After M S) : Turn M S := ⟨a.link, { o with attrs := a.obj }, a.result.map (fun _ => .done)⟩

section
variable {V R M S : Type} (C : Net.Codec UInt8 M) (view : M → Val) (peer : Peer S) (env : Env V R) (typeOf : TypeOf AVal)

/-- `utils.get_one_result(list(...))` (base.py:602-603, ldapobject.py:225-226) as objects -/
def oneObj (o : Obj) (x : Link M S × Except Err (List (Search.Item Received.Entry R))) : Turn M S :=
  match x with
  | (l', .error e) => ⟨l', o, .error e⟩
  | (l', .ok items) =>
    match Search.getOneResult items with
    | .error e => ⟨l', o, .error e⟩
    | .ok i => ⟨l', o, .ok (.objs [o.made env.lower i])⟩

/-- ldapobject.py:464-474: what a change of name does to the object's attributes once the server has made it; the first result is what they are then, also if there is an exception -/
def renameAttrs (d : AttrsDict AVal) (curRdn newRdn : Str) (clean : Bool) : AttrsDict AVal × Except Err Unit :=
  match (if clean then
      match splitFirst '=' curRdn with
      | none => .error .valueError
      | some (a, v) => .ok (dropVal env.lower typeOf d a (.text v))
    else .ok d : Except Err (AttrsDict AVal)) with
  | .error e => (d, .error e)
  | .ok d1 =>
    match splitFirst '=' newRdn with
    | none => (d1, .error .valueError)
    | some (a, v) => putVal env.lower typeOf d1 a (.text v)

/-- ldapobject.py:458-475 `mod_dn` of an object with this DN -/
def modDnObj (l : Link M S) (o : Obj) (dn newRdn : Str) (clean : Bool) (newParent : Option Str) : Turn M S :=
  match splitFirst ',' dn with
  | none => ⟨l, o, .error .valueError⟩
  | some (curRdn, curParent) =>
    let parent := newParent.getD curParent
    match call C view peer env l (.modDn dn newRdn clean (some parent)) with
    | (l', .error e) => ⟨l', o, .error e⟩
    | (l', .ok _) =>
      match renameAttrs env typeOf o.attrs curRdn newRdn clean with
      | (d, .error e) => ⟨l', { o with attrs := d }, .error e⟩
      | (d, .ok _) => ⟨l', { o with attrs := d, dn := some (newRdn ++ str "," ++ parent) }, .ok .done⟩

/-- One call: `get_child` ldapobject.py:148-150, `add_child` 163-165, `delete_child` 176-177, `search` 190-192, `find` 217-228, `compare` 240-241, `refresh` 314-315, `modify` 353-355, `add_attrs` 366-369, `replace_attrs`
380-381, `delete_attrs` 393-396, `delete` 440-444, `mod_dn` 457-475, `move` 497-498. `strict` is `self.ldap_conn.strict_modify`. -/
def act (strict : Bool) (l : Link M S) (o : Obj) (m : Method) : Turn M S :=
  match o.dn with
  | none => ⟨l, o, .error (deadErr m)⟩
  | some dn =>
    match m with
    | .modify mods => .ofAfter o (modifyObj C view peer (env.forObj strict dn) env.lower typeOf l o.attrs mods)
    | .addAttrs new => .ofAfter o (OverWire.addAttrs C view peer (env.forObj strict dn) env.lower typeOf l o.attrs new)
    | .replaceAttrs new => .ofAfter o (OverWire.replaceAttrs C view peer (env.forObj strict dn) env.lower typeOf l o.attrs new)
    | .deleteAttrs del => .ofAfter o (OverWire.deleteAttrs C view peer (env.forObj strict dn) env.lower typeOf l o.attrs del)
    | .refresh attrs => .ofAfter o (refreshObj C view peer (env.forObj strict dn) env.lower l o.attrs attrs)
    | .compare attr value =>
      match call C view peer env.plain l (.compare dn attr value) with
      | (l', .error e) => ⟨l', o, .error e⟩
      | (l', .ok (.truth b)) => ⟨l', o, .ok (.truth b)⟩
      | (l', .ok _) => ⟨l', o, .ok .done⟩
    | .delete =>
      match call C view peer env l (.delete dn) with
      | (l', .error e) => ⟨l', o, .error e⟩
      | (l', .ok _) => ⟨l', { o with dn := none, attrs := CIDict.empty }, .ok .done⟩
    | .modDn newRdn clean parent => modDnObj C view peer env typeOf l o dn newRdn clean parent
    | .move newDn clean =>
      match splitFirst ',' newDn with
      | none => ⟨l, o, .error .valueError⟩
      | some (rdn, parent) => modDnObj C view peer env typeOf l o dn rdn clean (some parent)
    | .getChild rdn attrs =>
      match o.names.rdn rdn with
      | .error e => ⟨l, o, .error e⟩
      | .ok child =>
        match getOne C view peer env l child attrs [] with
        | (l', .error e) => ⟨l', o, .error e⟩
        | (l', .ok i) => ⟨l', o, .ok (.objs [o.made env.lower i])⟩
    | .addChild rdn attrs =>
      match o.names.rdn rdn with
      | .error e => ⟨l, o, .error e⟩
      | .ok child =>
        match call C view peer env l (.add child attrs) with
        | (l', .error e) => ⟨l', o, .error e⟩
        | (l', .ok (.object dn' d)) => ⟨l', o, .ok (.objs [some ⟨some dn', d, o.scope, o.rdnAttr⟩])⟩
        | (l', .ok _) => ⟨l', o, .ok .done⟩
    | .deleteChild rdn =>
      match o.names.rdn rdn with
      | .error e => ⟨l, o, .error e⟩
      | .ok child =>
        match call C view peer env l (.delete child) with
        | (l', .error e) => ⟨l', o, .error e⟩
        | (l', .ok _) => ⟨l', o, .ok .done⟩
    | .search filter attrs =>
      match searchAll C view peer env l { base := dn, scope := o.scope, filter := filter, attrs := attrs } with
      | (l', .error e) => ⟨l', o, .error e⟩
      | (l', .ok items) => ⟨l', o, .ok (.objs (items.map (o.made env.lower)))⟩
    | .find rdn attrs =>
      match o.names.findArgs rdn attrs [] with
      | .error e => ⟨l, o, .error e⟩
      | .ok a => oneObj env o (searchAll C view peer env l a)

/-- a step of a program: a call on the object at hand, and which of the objects returned, if any, is at hand from then on -/
structure ObjStep (V R : Type) where
  env : Env V R
  strict : Bool
  method : Method
  follow : Option Nat := none

/-- the object at hand after a call -/
def chosen (o : Obj) (follow : Option Nat) (res : Except Err Returned) : Obj :=
  match follow, res with
  | some k, .ok (.objs l) =>
    match l[k]? with
    | some (some n) => n
    | _ => o
  | _, _ => o

/-- a program: the connection and the object at hand after it, and the results -/
def runObj (l : Link M S) (o : Obj) : List (ObjStep V R) → Link M S × Obj × List (Except Err Returned)
  | [] => (l, o, [])
  | s :: rest =>
    let t := act C view peer s.env typeOf s.strict l o s.method
    let q := runObj t.link (chosen t.obj s.follow t.result) rest
    (q.1, q.2.1, t.result :: q.2.2)

end
end Api
end Laurelin
