import Verif.Model.LdapModify
/-!
Modify transactions (laurelin/ldap/ldapobject.py:516-521 `mod_transaction`, 523-645 `ModTransactionObject`).

One real object and any number of transaction objects, each begun on the object or on another transaction.
`Mod` objects are values here: a caller who stages the *same* `Mod` object in two places shares it in Python
(only `DELETE_ALL` rewriting, base.py:1022, is visible through such sharing). The extra-keyword `TypeError`
(ldapobject.py:627-628) and the refused methods (647-673) are modelled in `transRefused` only.
-/
namespace Laurelin
variable {V : Type} [DecidableEq V]

/-- ldapobject.py:596-601: `_orig_obj` (`none` = the real object), `_modlist`, own attributes. -/
structure Trans (V : Type) where
  parent : Option Nat
  modlist : List (Mod V)
  attrs : AttrsDict V

/-- the real object, the transactions begun so far, and everything sent -/
structure TState (V : Type) where
  orig : AttrsDict V
  trans : List (Trans V)
  sent : List (ModRequest V)

/-- one call; `env` is the connection at the time, `server` its answer -/
inductive TOp (V : Type) where
  | begin (parent : Option Nat)
  | modify (t : Nat) (env : ObjEnv V) (mods : List (Mod V))
  | refresh (t : Nat) (got : PDict Str (List V))
  | commit (t : Nat) (env : ObjEnv V) (server : ModRequest V → Except Err Unit)
  | exit (t : Nat)

section
variable (lower : Str → Str) (typeOf : TypeOf V)

/-- attrsdict.py:28-35 `deepcopy` followed by attrsdict.py:41-42/utils.py:127-130 (`update` into a fresh object). -/
def copyAttrs (d : AttrsDict V) : AttrsDict V := CIDict.update lower CIDict.empty (AttrsDict.deepcopy d)

/-- ldapobject.py:619-631 `ModTransactionObject.modify`: validate, stage, then update the local attributes. The
validators are those of the connection (base.py:1227-1238), called whether or not the list is empty. -/
def transModify (env : ObjEnv V) (t : Trans V) (mods : List (Mod V)) : Trans V × Except Err Unit :=
  match runValidation env.validators (env.dn, mods, some t.attrs) with
  | .error e => (t, .error e)
  | .ok _ =>
    let l := localModify lower typeOf t.attrs mods
    ({ t with modlist := t.modlist ++ mods, attrs := l.1 }, l.2)

/-- ldapobject.py:596-631 dispatched on the state. Operations on a transaction that does not exist are no-ops. -/
def TState.step (s : TState V) : TOp V → TState V × Except Err Unit
  | .begin parent =>
    match parent with
    | none => ({ s with trans := s.trans ++ [⟨none, [], copyAttrs lower s.orig⟩] }, .ok ())
    | some p => match s.trans[p]? with
      | none => (s, .ok ())
      | some t => ({ s with trans := s.trans ++ [⟨some p, [], copyAttrs lower t.attrs⟩] }, .ok ())
  | .modify i env mods =>
    match s.trans[i]? with
    | none => (s, .ok ())
    | some t =>
      let r := transModify lower typeOf env t mods
      ({ s with trans := s.trans.set i r.1 }, r.2)
  | .refresh i got =>
    match s.trans[i]? with
    | none => (s, .ok ())
    | some t => ({ s with trans := s.trans.set i { t with attrs := CIDict.update lower t.attrs got } }, .ok ())
  | .commit i env server =>
    match s.trans[i]? with
    | none => (s, .ok ())
    | some t =>
      match t.parent with
      | none =>
        -- ldapobject.py:616-617 on the real object; on an exception `_modlist` is kept, with its Mods as rewritten
        let r := env.modify lower typeOf server s.orig t.modlist
        ({ orig := r.1,
           trans := s.trans.set i { t with modlist := match r.2.result with | .ok _ => [] | .error _ => r.2.mods },
           sent := s.sent ++ r.2.sent }, r.2.result)
      | some p =>
        match s.trans[p]? with
        | none => (s, .ok ())
        | some tp =>
          let r := transModify lower typeOf env tp t.modlist
          ({ s with trans := (s.trans.set p r.1).set i { t with modlist := match r.2 with | .ok _ => [] | .error _ => t.modlist } },
           r.2)
  | .exit i =>
    match s.trans[i]? with
    | none => (s, .ok ())
    | some t => ({ s with trans := s.trans.set i { t with modlist := [] } }, .ok ())

/-- a history of calls -/
def TState.run (s : TState V) : List (TOp V) → TState V
  | [] => s
  | op :: ops => TState.run (s.step lower typeOf op).1 ops

/-- the state before any transaction -/
def TState.init (d : AttrsDict V) : TState V := ⟨d, [], []⟩

/-- ldapobject.py:357-369 `add_attrs`, inherited by transactions: the refresh reads from the *server* into the
transaction's attributes, then the modlist is staged. -/
def transAddAttrs (env : ObjEnv V) (fetch : List Str → Except Err (PDict Str (List V))) (t : Trans V)
    (new : List (Str × Vals V)) : Trans V × Except Err Unit :=
  match (if env.strict then .ok t.attrs else refreshMissing lower fetch t.attrs (new.map Prod.fst)) with
  | .error e => (t, .error e)
  | .ok d1 =>
    match addModlist lower typeOf d1 new with
    | .error e => ({ t with attrs := d1 }, .error e)
    | .ok mods => transModify lower typeOf env { t with attrs := d1 } mods

/-- ldapobject.py:371-381 `replace_attrs`, inherited by transactions. -/
def transReplaceAttrs (env : ObjEnv V) (t : Trans V) (new : List (Str × Vals V)) : Trans V × Except Err Unit :=
  match modlist .replace (new.map (fun kv => (kv.1, .vals kv.2))) with
  | .error e => (t, .error e)
  | .ok mods => transModify lower typeOf env t mods

/-- ldapobject.py:383-396 `delete_attrs`, inherited by transactions. -/
def transDeleteAttrs (env : ObjEnv V) (fetch : List Str → Except Err (PDict Str (List V))) (t : Trans V)
    (del : List (Str × Vals V)) : Trans V × Except Err Unit :=
  match (if env.strict then .ok t.attrs else refreshMissing lower fetch t.attrs (del.map Prod.fst)) with
  | .error e => (t, .error e)
  | .ok d1 =>
    match deleteModlist lower typeOf d1 del with
    | .error e => ({ t with attrs := d1 }, .error e)
    | .ok mods => transModify lower typeOf env { t with attrs := d1 } mods

end

/-- ldapobject.py:647-673: methods a transaction refuses with `LDAPTransactionError`. -/
inductive TransRefused where
  | addChild | delete | deleteChild | modDn
/-- ldapobject.py:647-673. -/
def transRefused : TransRefused → Err := fun _ => .transaction

end Laurelin
