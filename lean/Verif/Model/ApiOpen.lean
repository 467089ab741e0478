import Verif.Model.Api
/-!
# Opening a connection, down to the octets (laurelin/ldap/base.py:329-358)

What `LDAP.__init__` does after the socket is connected (base.py:299-314: `Model/Conn.lean`, `Model/Net.lean`) and its options have their values (base.py:225-297: `Model/Config.lean`): read the root DSE, choose
the base DN and the default SASL mechanism. Also `refresh_root_dse`. Simplifications: those of `Model/Api.lean`; validators (base.py:316-327) are left out here; the base object (base.py:350-351) is its DN.
-/
namespace Laurelin
namespace Api
open Codec Asn1 Rfc4511 OverWire

/-- what matters of the constructor's arguments, after defaults: the URI of the socket, the base DN and the default SASL mechanism if any -/
structure OpenArgs where
  uri : Str
  base : Option Str
  mech : Option Str

/-- the attributes of the root DSE, `_sasl_mechs`, `base_dn` (which is `bytes` if the server's value is not UTF-8), `default_sasl_mech` -/
structure Opened where
  root : AttrsDict AVal
  mechs : List AVal
  base : AVal
  mech : Option Str

section
variable {V R M S : Type} (C : Net.Codec UInt8 M) (view : M → Val) (peer : Peer S) (env : Env V R)

/-- `refresh_root_dse`, base.py:353-358: attributes of the root DSE and the SASL mechanisms. If what `get` returns is a reference handle, `get_attr` is an `AttributeError`. -/
def refreshRootDse (l : Link M S) : Link M S × Except Err (AttrsDict AVal × List AVal) :=
  match getOne C view peer env l [] (some [str "*", str "+"]) [] with
  | (l', .error e) => (l', .error e)
  | (l', .ok (.ref _ _)) => (l', .error .attributeError)
  | (l', .ok (.entry e _)) =>
    let root := CIDict.update env.lower CIDict.empty e.2
    (l', .ok (root, AttrsDict.getAttr env.lower root (str "supportedSASLMechanisms")))

/-- base.py:347-348 -/
def defaultMech (uri : Str) (mech : Option Str) : Option Str :=
  if mech.isNone && (str "ldapi:").isPrefixOf uri then some (str "EXTERNAL") else mech

/-- base.py:329-351 -/
def openConn (l : Link M S) (a : OpenArgs) : Link M S × Except Err Opened :=
  match refreshRootDse C view peer env l with
  | (l', .error e) => (l', .error e)
  | (l', .ok (root, mechs)) =>
    match chooseBase (a.base.map .text) (AttrsDict.getAttr env.lower root (str "defaultNamingContext")) (AttrsDict.getAttr env.lower root (str "namingContexts")) with
    | .error e => (l', .error e)
    | .ok base => (l', .ok ⟨root, mechs, base, defaultMech a.uri a.mech⟩)

/-- equality of Python sets -/
def sameSet {A : Type} [DecidableEq A] (a b : List A) : Bool := a.all (fun x => b.contains x) && b.all (fun x => a.contains x)

/-- `get_sasl_mechs` when they have to be queried, base.py:427-431. The debug message joins them: a `TypeError` if one is `bytes`. -/
def queryMechs (l : Link M S) : Link M S × Except Err (List AVal) :=
  match getOne C view peer env l [] (some [str "supportedSASLMechanisms"]) [] with
  | (l', .error e) => (l', .error e)
  | (l', .ok (.ref _ _)) => (l', .error .attributeError)
  | (l', .ok (.entry e _)) =>
    let mechs := AttrsDict.getAttr env.lower (CIDict.update env.lower CIDict.empty e.2) (str "supportedSASLMechanisms")
    (l', if mechs.any (fun v => match v with | .raw _ => true | .text _ => false) then .error .typeError else .ok mechs)

/-- `recheck_sasl_mechs`, base.py:434-453, when the mechanisms are known: they are queried again. `_sasl_mechs` afterwards. -/
def recheckMechs (l : Link M S) (fatal : Bool) (orig : List AVal) : Link M S × Except Err (List AVal) :=
  match queryMechs C view peer env l with
  | (l', .error e) => (l', .error e)
  | (l', .ok mechs) => (l', if sameSet orig mechs then .ok mechs else if fatal then .error .ldapError else .ok mechs)

/-- the values that are text -/
def texts (l : List AVal) : List Str := l.filterMap (fun v => match v with | .text s => some s | .raw _ => none)

/-- What the calls of the connection take from its root DSE: the controls and features the server supports (base.py:361, 717). Comparison with the values is by the schema of these attributes, for OIDs
exact equality (`c76_in`, the row of `objectIdentifierMatch`); an OID in `REQUEST_OID` that is not one is an `InvalidSyntaxError` there, which is left out. -/
def learned (c : SearchConn V R) (root : AttrsDict AVal) : SearchConn V R :=
  { c with features := texts (AttrsDict.getAttr env.lower root (str "supportedFeatures")), supportedCtrls := texts (AttrsDict.getAttr env.lower root (str "supportedControl")) }

end
end Api
end Laurelin
