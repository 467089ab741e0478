import Verif.Model.OverWire
import Verif.Model.Transaction
/-!
# Modify transactions of a connected object, down to the octets (laurelin/ldap/ldapobject.py:516-521, 523-631)

`Model/Transaction.lean` has the transactions, `Model/OverWire.lean` the object's methods on a connection; here the methods that a transaction inherits (`refresh`, `add_attrs`, `replace_attrs`,
`delete_attrs`) read over the connection, and `commit` of a transaction begun on the object writes to it. Simplifications are those of the two models.
-/
namespace Laurelin
namespace OverWire
open Codec Rfc4511

/-- the calls that stage changes, and `refresh` -/
inductive Stage where
  | modify (mods : List (Mod AVal))
  | addAttrs (new : List (Str × List AVal))
  | replaceAttrs (new : List (Str × Vals AVal))
  | deleteAttrs (del : List (Str × Vals AVal))
  | refresh (attrs : List Str)

/-- a connection, the real object, the transactions begun so far -/
structure TLink (M S : Type) where
  link : Link M S
  orig : AttrsDict AVal
  trans : List (Trans AVal)

/-- one call; `env` is the connection at the time -/
inductive TCall (V R : Type) where
  | begin (parent : Option Nat)
  | stage (t : Nat) (env : Env V R) (c : Stage)
  | commit (t : Nat) (env : Env V R)
  | exit (t : Nat)

section
variable {V R M S : Type} (C : Net.Codec UInt8 M) (view : M → Asn1.Val) (peer : Peer S) (lower : Str → Str) (typeOf : TypeOf AVal)

/-- ldapobject.py:306-316 and 357-396, inherited by transactions: what is missing is read from the server into the transaction's attributes; ldapobject.py:619-631 then stages. -/
def stageOn (env : Env V R) (l : Link M S) (t : Trans AVal) : Stage → Link M S × Trans AVal × Except Err Unit
  | .modify mods => (l, transModify lower typeOf env.obj t mods)
  | .addAttrs new =>
    match prepare C view peer env lower l t.attrs (new.map Prod.fst) with
    | (l1, .error e) => (l1, t, .error e)
    | (l1, .ok d1) =>
      match addModlist lower typeOf d1 (new.map (fun kv => (kv.1, Vals.list kv.2))) with
      | .error e => (l1, { t with attrs := d1 }, .error e)
      | .ok mods => (l1, transModify lower typeOf env.obj { t with attrs := d1 } mods)
  | .replaceAttrs new =>
    match modlist .replace (new.map (fun kv => (kv.1, .vals kv.2))) with
    | .error e => (l, t, .error e)
    | .ok mods => (l, transModify lower typeOf env.obj t mods)
  | .deleteAttrs del =>
    match prepare C view peer env lower l t.attrs (del.map Prod.fst) with
    | (l1, .error e) => (l1, t, .error e)
    | (l1, .ok d1) =>
      match deleteModlist lower typeOf d1 del with
      | .error e => (l1, { t with attrs := d1 }, .error e)
      | .ok mods => (l1, transModify lower typeOf env.obj { t with attrs := d1 } mods)
  | .refresh attrs =>
    match refresh C view peer env lower l t.attrs attrs with
    | (l1, .error e) => (l1, t, .error e)
    | (l1, .ok d1) => (l1, { t with attrs := d1 }, .ok ())

/-- ldapobject.py:612-617 `commit` of a transaction begun on the real object: `modify` of that object (343-355) with the staged list, which is emptied unless that raises. The `Mod` objects are those staged:
base.py:1022 replaces `DELETE_ALL` in them by an empty list. -/
def commitRoot (env : Env V R) (l : Link M S) (orig : AttrsDict AVal) (t : Trans AVal) : After M S × Trans AVal :=
  let m := env.obj.modify lower typeOf (fun rq => (sendModify C view peer env l rq).2) orig t.modlist
  let a := modifyObj C view peer env lower typeOf l orig t.modlist
  (a, { t with modlist := match a.result with | .ok _ => [] | .error _ => m.2.mods })

/-- ldapobject.py:596-631 dispatched on the state, cf. `TState.step`. Calls on a transaction that does not exist are no-ops. -/
def TLink.step (s : TLink M S) : TCall V R → TLink M S × Except Err Unit
  | .begin none => ({ s with trans := s.trans ++ [⟨none, [], copyAttrs lower s.orig⟩] }, .ok ())
  | .begin (some p) =>
    match s.trans[p]? with
    | none => (s, .ok ())
    | some t => ({ s with trans := s.trans ++ [⟨some p, [], copyAttrs lower t.attrs⟩] }, .ok ())
  | .stage i env c =>
    match s.trans[i]? with
    | none => (s, .ok ())
    | some t =>
      let r := stageOn C view peer lower typeOf env s.link t c
      ({ s with link := r.1, trans := s.trans.set i r.2.1 }, r.2.2)
  | .commit i env =>
    match s.trans[i]? with
    | none => (s, .ok ())
    | some t =>
      match t.parent with
      | none =>
        let r := commitRoot C view peer lower typeOf env s.link s.orig t
        (⟨r.1.link, r.1.obj, s.trans.set i r.2⟩, r.1.result)
      | some p =>
        match s.trans[p]? with
        | none => (s, .ok ())
        | some tp =>
          -- ldapobject.py:616-617 on another transaction, 619-631
          let r := transModify lower typeOf env.obj tp t.modlist
          ({ s with trans := (s.trans.set p r.1).set i { t with modlist := match r.2 with | .ok _ => [] | .error _ => t.modlist } }, r.2)
  | .exit i =>
    match s.trans[i]? with
    | none => (s, .ok ())
    | some t => ({ s with trans := s.trans.set i { t with modlist := [] } }, .ok ())

/-- a history of calls -/
def TLink.run (s : TLink M S) : List (TCall V R) → TLink M S
  | [] => s
  | c :: cs => TLink.run (s.step C view peer lower typeOf c).1 cs

end
end OverWire
end Laurelin
