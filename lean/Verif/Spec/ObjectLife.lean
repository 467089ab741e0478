import Verif.Spec.Patterns
import Verif.Spec.Dn
import Verif.Model.ApiObject
/-!
Specification: a directory in which entries are also removed and renamed (RFC 4511 4.8, 4.9), and what the methods of an object mean for it.
-/
namespace Laurelin.Spec.ObjectS
open Laurelin Codec Wire OverWireS DirectoryS EntriesS PatternsS

/-- an RDN of one attribute whose value needs no escaping -/
structure PlainRdn (a v : Str) : Prop where
  name : '=' ∉ a ∧ ',' ∉ a
  value : dnEscape v = v ∧ ',' ∉ v

/-- the name of an entry with this RDN below this parent -/
def below (rdn parent : Str) : Str := rdn ++ str "," ++ parent

/-- Removing and renaming entries, and finding them anywhere. `under x y`: the DN `x` is below `y`, so that it may be affected if `y` is renamed. -/
structure Tree {D : Type} (lower : Str → Str) (m : Str → Bytes → Bytes → Bool) (norm : Str → Str) (under : Str → Str → Prop) (dir : Directory D) (at_ : D → Str → Option (Entry Bytes)) : Prop where
  delete : ∀ d dn d', dir.updated d (.delRequest (utf8Enc dn)) d' → at_ d (norm dn) ≠ none ∧ at_ d' (norm dn) = none ∧ ∀ x, x ≠ norm dn → at_ d' x = at_ d x
  rename : ∀ d a v parent a' v' clean sup d', PlainRdn a v → PlainRdn a' v' →
    dir.updated d (.modDNRequest (utf8Enc (below (avaRdn a v) parent)) (utf8Enc (avaRdn a' v')) clean (some (utf8Enc sup))) d' →
    ∃ e, at_ d (norm (below (avaRdn a v) parent)) = some e ∧ at_ d' (norm (below (avaRdn a' v') sup)) = some (srvRename lower m e a (utf8Enc v) a' (utf8Enc v') clean) ∧
      (norm (below (avaRdn a' v') sup) ≠ norm (below (avaRdn a v) parent) → at_ d' (norm (below (avaRdn a v) parent)) = none) ∧
      ∀ x, (∀ y, y = norm (below (avaRdn a v) parent) ∨ y = norm (below (avaRdn a' v') sup) → x ≠ y ∧ ¬ under x y) → at_ d' x = at_ d x
  found : ∀ d base scope deref size time f attrs found, dir.finds d (.searchRequest base scope deref size time false f (attrs.map utf8Enc)) found → ∀ p ∈ found, ∃ e, at_ d (norm p.1) = some e ∧ Faithful lower e attrs p.2

/-! ## What an object shows -/

/-- The object is of an entry of the directory and shows each attribute it has with the values of this entry; or it has been deleted and has no attributes. -/
def Mirrors {D : Type} (lower norm : Str → Str) (at_ : D → Str → Option (Entry Bytes)) (d : D) (o : Api.Obj) : Prop :=
  match o.dn with
  | none => ∀ a, AttrsDict.getAttr lower o.attrs a = []
  | some dn => ∃ e, at_ d (norm dn) = some e ∧ ∀ a, AttrsDict.getAttr lower o.attrs a ≠ [] → ShowsValues lower e o.attrs a

/-! ## What the methods mean -/

/-- the name of the child `x`: `x` is a whole RDN, or a value of the attribute that the object has for its children -/
inductive Child (o : Api.Obj) (dn x : Str) : Str → Prop where
  | full : '=' ∈ x → Child o dn x (below x dn)
  | value (a : Str) : '=' ∉ x → o.rdnAttr = some a → Child o dn x (below (a ++ str "=" ++ x) dn)

/-- the RDN that `x` stands for -/
inductive Rdn (o : Api.Obj) (x : Str) : Str → Prop where
  | full : '=' ∈ x → Rdn o x x
  | value (a : Str) : '=' ∉ x → o.rdnAttr = some a → Rdn o x (a ++ str "=" ++ x)

/-- the changes that a modlist means -/
def changes (mods : List (Mod Rfc4511.AVal)) : List (Change Bytes) :=
  mods.map (fun md => ⟨md.op, md.attr, match md.vals with
    | .deleteAll => []
    | .list l => l.map (·.bytes)⟩)

/-- this entry has changed so, and no other has -/
def Changed {D : Type} (at_ : D → Str → Option (Entry Bytes)) (d d' : D) (x : Str) (P : Entry Bytes → Entry Bytes → Prop) : Prop :=
  (∃ e e', at_ d x = some e ∧ at_ d' x = some e' ∧ P e e') ∧ ∀ y, y ≠ x → at_ d' y = at_ d y

/-- the entry `a=v` below `parent` has become `a'=v'` below `sup`; entries that are neither of these nor below one of them have not changed -/
def Renamed {D : Type} (lower : Str → Str) (m : Str → Bytes → Bytes → Bool) (norm : Str → Str) (under : Str → Str → Prop) (at_ : D → Str → Option (Entry Bytes)) (d d' : D) (dn newRdn : Str) (clean : Bool)
    (newDn : Str) (newParent : Option Str) : Prop :=
  ∃ a v parent a' v', PlainRdn a v ∧ PlainRdn a' v' ∧ dn = below (avaRdn a v) parent ∧ newRdn = avaRdn a' v' ∧ newDn = below newRdn (newParent.getD parent) ∧
    (∃ e, at_ d (norm dn) = some e ∧ at_ d' (norm newDn) = some (srvRename lower m e a (utf8Enc v) a' (utf8Enc v') clean)) ∧
    (norm newDn ≠ norm dn → at_ d' (norm dn) = none) ∧ ∀ x, (∀ y, y = norm dn ∨ y = norm newDn → x ≠ y ∧ ¬ under x y) → at_ d' x = at_ d x

/-- these objects are what a search with these arguments has found: in order, each shows its entry and has the settings of the object it was found from -/
def FoundAs {V R D : Type} (lower norm : Str → Str) (dir : Directory D) (at_ : D → Str → Option (Entry Bytes)) (conn : SearchConn V R) (d : D) (o : Api.Obj) (a : SearchArgs V) (l : List (Option Api.Obj)) : Prop :=
  ∃ op found, SearchFor conn a op ∧ dir.finds d op found ∧
    Pairwise2 (fun (p : Found) x => ∃ n : Api.Obj, x = some n ∧ n.dn = some p.1 ∧ n.scope = o.scope ∧ n.rdnAttr = o.rdnAttr ∧ Mirrors lower norm at_ d n) found l

/-- The contents are `d` and the object is `o` before a call of the method, `d'` and `o'` after it. A call that raises changes no entry, and not the name of the object. -/
def Means {V R D : Type} (norm : Str → Str) (m : Str → Bytes → Bytes → Bool) (under : Str → Str → Prop) (system : Str → Prop) (dir : Directory D) (at_ : D → Str → Option (Entry Bytes)) (env : Api.Env V R)
    (d : D) (o : Api.Obj) (call : Api.Method) (res : Except Err Api.Returned) (o' : Api.Obj) (d' : D) : Prop :=
  match res with
  | .error _ => (∀ x, at_ d' x = at_ d x) ∧ o'.dn = o.dn
  | .ok ret => ∃ dn, o.dn = some dn ∧
    match call with
    | .modify mods => ret = .done ∧ o'.dn = o.dn ∧ Changed at_ d d' (norm dn) (fun e e' => srvModify env.lower m e (changes mods) = .ok e')
    | .addAttrs new => ret = .done ∧ o'.dn = o.dn ∧ Changed at_ d d' (norm dn) (fun e e' => Becomes env.lower e e' new (fun a vs cur => withAdded (m a) cur (vs.map (·.bytes))))
    | .replaceAttrs new => ret = .done ∧ o'.dn = o.dn ∧ Changed at_ d d' (norm dn) (fun e e' => Becomes env.lower e e' new (fun _ vs _ => replacing vs))
    | .deleteAttrs del => ret = .done ∧ o'.dn = o.dn ∧ Changed at_ d d' (norm dn) (fun e e' => Becomes env.lower e e' del (fun a vs cur => deleting (m a) vs cur))
    | .refresh attrs => ret = .done ∧ o'.dn = o.dn ∧ (∀ x, at_ d' x = at_ d x) ∧ ∃ e, at_ d (norm dn) = some e ∧ ∀ a ∈ attrs, ShowsValues env.lower e o'.attrs a
    | .compare attr value => o' = o ∧ d' = d ∧ ∃ b, ret = .truth b ∧ (b = true ↔ dir.holds d (utf8Enc dn) (utf8Enc attr) (utf8Enc value))
    | .delete => ret = .done ∧ o'.dn = none ∧ at_ d (norm dn) ≠ none ∧ at_ d' (norm dn) = none ∧ ∀ x, x ≠ norm dn → at_ d' x = at_ d x
    | .modDn newRdn clean parent => ret = .done ∧ ∃ newDn, o'.dn = some newDn ∧ Renamed env.lower m norm under at_ d d' dn newRdn clean newDn parent
    | .move newDn clean => ret = .done ∧ o'.dn = some newDn ∧ ∃ rdn sup, newDn = below rdn sup ∧ Renamed env.lower m norm under at_ d d' dn rdn clean newDn (some sup)
    | .getChild rdn attrs => o' = o ∧ d' = d ∧ ∃ child n, Child o dn rdn child ∧ ret = .objs [some n] ∧ (∃ name, n.dn = some name ∧ norm name = norm child) ∧
        FoundAs env.lower norm dir at_ env.conn d o { base := child, scope := .base, attrs := attrs, limit := 2 } [some n]
    | .addChild rdn attrs => o' = o ∧ ∃ child n, Child o dn rdn child ∧ ret = .objs [some n] ∧ n.dn = some child ∧ n.scope = o.scope ∧ n.rdnAttr = o.rdnAttr ∧ at_ d (norm child) = none ∧
        (∃ e, at_ d' (norm child) = some e ∧ Created env.lower system (attrs.map (fun kv => (kv.1, kv.2.map (·.bytes)))) e) ∧ (∀ x, x ≠ norm child → at_ d' x = at_ d x) ∧
        (∀ kv ∈ attrs, AttrsDict.getAttr env.lower n.attrs kv.1 = kv.2) ∧ Mirrors env.lower norm at_ d' n
    | .deleteChild rdn => o' = o ∧ ret = .done ∧ ∃ child, Child o dn rdn child ∧ at_ d (norm child) ≠ none ∧ at_ d' (norm child) = none ∧ ∀ x, x ≠ norm child → at_ d' x = at_ d x
    | .search filter attrs => o' = o ∧ d' = d ∧ ∃ l, ret = .objs l ∧ FoundAs env.lower norm dir at_ env.conn d o { base := dn, scope := o.scope, filter := filter, attrs := attrs } l
    | .find rdn attrs => o' = o ∧ d' = d ∧ ∃ n, ret = .objs [some n] ∧
        ((o.scope = .one ∧ ∃ child, Child o dn rdn child ∧ FoundAs env.lower norm dir at_ env.conn d o { base := child, scope := .base, attrs := attrs, limit := 2 } [some n]) ∨
         (o.scope = .sub ∧ ∃ full, Rdn o rdn full ∧
            FoundAs env.lower norm dir at_ env.conn d o { base := dn, scope := .sub, filter := some (str "(" ++ full ++ str ")"), fsyntax := some .standard, attrs := attrs, limit := 2 } [some n]))

end Laurelin.Spec.ObjectS
