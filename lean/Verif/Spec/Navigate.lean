import Verif.Model.Navigate
import Verif.Spec.SearchRequest
/-!
What a caller may expect of the relative methods: which entry a request is about, and which settings an object has. Written without the
functions of the model (only its data types).
-/
namespace Laurelin.Spec.Navigate
open Laurelin Laurelin.Navigate Laurelin.Spec

/-- the name of the child `x` of an object: `x,<dn>` if `x` is a full RDN `attr=value`, else `<rdn_attr>=x,<dn>` -/
inductive ChildName (o : LObj) (x : Str) : Str → Prop where
  | full (base : Str) : o.dn = some base → '=' ∈ x → ChildName o x (x ++ str "," ++ base)
  | value (base a : Str) : o.dn = some base → '=' ∉ x → o.rdnAttr = some a → ChildName o x (a ++ str "=" ++ x ++ str "," ++ base)

/-- the RDN that `x` stands for -/
inductive FullRdn (o : LObj) (x : Str) : Str → Prop where
  | full : '=' ∈ x → FullRdn o x x
  | value (a : Str) : '=' ∉ x → o.rdnAttr = some a → FullRdn o x (a ++ str "=" ++ x)

/-- the filter of a search: the text given, in the connection's syntax, or else the connection's default filter -/
def Selects {V R : Type} (c : SearchConn V R) (text : Option Str) (f : Filter) : Prop :=
  match text with
  | some s => ReadsAs c.dfltSyntax s f
  | none => ReadsAs .standard c.dfltFilter f

/-- the request a call is allowed to send -/
inductive Aims {V R : Type} (c : SearchConn V R) (o : LObj) : Call V → Req → Prop where
  | getChild (x : Str) (attrs : Option (List Str)) (k : Kwds V) (r : SearchReq) :
      ChildName o x r.base → r.scope = .base → r.limit = 2 → Selects c none r.filter → (∀ as, attrs = some as → r.attrs = as) →
      Aims c o (.getChild x attrs k) (.search r)
  | addChild (x dn : Str) (attrs : Items) (k : Kwds V) : ChildName o x dn → Aims c o (.addChild x attrs k) (.add dn attrs)
  | deleteChild (x dn : Str) (ctrls : PDict Str (Controls.Kwd V)) : ChildName o x dn → Aims c o (.deleteChild x ctrls) (.delete dn)
  | search (filter : Option Str) (attrs : Option (List Str)) (k : Kwds V) (r : SearchReq) :
      o.dn = some r.base → r.scope = o.scope → r.limit = 0 → Selects c filter r.filter → (∀ as, attrs = some as → r.attrs = as) →
      Aims c o (.search filter attrs k) (.search r)
  | findOne (x : Str) (attrs : Option (List Str)) (k : Kwds V) (r : SearchReq) :
      o.scope = .one → ChildName o x r.base → r.scope = .base → r.limit = 2 → Selects c none r.filter → (∀ as, attrs = some as → r.attrs = as) →
      Aims c o (.find x attrs k) (.search r)
  | findBelow (x full : Str) (attrs : Option (List Str)) (k : Kwds V) (r : SearchReq) :
      o.scope = .sub → o.dn = some r.base → r.scope = .sub → r.limit = 2 → FullRdn o x full → ReadsAs .standard (str "(" ++ full ++ str ")") r.filter →
      (∀ as, attrs = some as → r.attrs = as) → Aims c o (.find x attrs k) (.search r)
  | compare (attr value dn : Str) : o.dn = some dn → Aims c o (.compare attr value) (.compare dn attr value)

/-- how a call ends whose request the server answered: accepted, with what is returned, or refused with an error -/
inductive Answers {V R : Type} (env : NavEnv V R) : Req → Except Err Ret → Prop where
  | added (dn : Str) (attrs : Items) (res : Except Err Unit) (l : List LObj) : env.added dn attrs = res → Answers env (.add dn attrs) (res.map (fun _ => .objs l))
  | deleted (dn : Str) (res : Except Err Ret) : (env.deleted dn).map (fun _ => .done) = res → Answers env (.delete dn) res
  | compared (dn attr value : Str) (res : Except Err Ret) : (env.compared dn attr value).map .verdict = res → Answers env (.compare dn attr value) res

/-- the settings a call gives to the objects it returns -/
def given {V : Type} : Call V → Option Scope × Option (Option Str)
  | .obj _ _ k => (k.scope, k.rdnAttr)
  | .getChild _ _ k => (k.scope, k.rdnAttr)
  | .addChild _ _ k => (k.scope, k.rdnAttr)
  | .search _ _ k => (k.scope, k.rdnAttr)
  | .find _ _ k => (k.scope, k.rdnAttr)
  | .deleteChild _ _ => (none, none)
  | .compare _ _ => (none, none)

/-- the last of several that was given -/
def lastGiven {A : Type} (l : List (Option A)) (start : A) : A := ((l.filterMap id).getLast?).getD start

/-- reaching an object from another by a chain of relative calls, each made on an object returned by the one before; each call is made on any
state of any connection, so anything may happen in between -/
inductive Reaches {V R : Type} : LObj → List (Call V) → LObj → Prop where
  | here (o : LObj) : Reaches o [] o
  | step {o n m : LObj} {c : Call V} {cs : List (Call V)} {r : Ret} (env : NavEnv V R) (st st1 : NavState) :
      Navigate.call env st o c = (st1, .ok r) → n ∈ r.objects → Reaches n cs m → Reaches o (c :: cs) m

end Laurelin.Spec.Navigate
