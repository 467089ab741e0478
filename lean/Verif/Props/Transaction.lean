import Verif.Model.Transaction
import Verif.Props.LdapModify
/-! Properties C13 and C14: modify transactions. -/
set_option linter.unusedSectionVars false
namespace Laurelin.Props
open Laurelin
variable {V : Type} [DecidableEq V] (lower : Str → Str) (typeOf : TypeOf V)

/-- the mods a call stages in transaction `t` when the validators accept them -/
def modsFor (t : Nat) : TOp V → List (Mod V)
  | .modify i _ mods => if i = t then mods else []
  | _ => []

/-- a stretch of calls, on any transactions, in which `t` itself is neither committed nor left, no checkpoint of `t` is
committed, and the validators accept what is staged in `t` -/
def Quiet (t : Nat) (s : TState V) : List (TOp V) → Prop
  | [] => True
  | op :: ops =>
    (match op with
      | .modify i env mods => i = t → ∀ tr, s.trans[t]? = some tr →
          runValidation env.validators (env.dn, mods, some tr.attrs) = .ok ()
      | .commit i _ _ => i ≠ t ∧ ∀ tr, s.trans[i]? = some tr → tr.parent ≠ some t
      | .exit i => i ≠ t
      | _ => True) ∧ Quiet t (s.step lower typeOf op).1 ops

/-- the call is a commit of a transaction begun on the real object -/
def RootCommit (s : TState V) (op : TOp V) : Prop :=
  ∃ i env server tr, op = .commit i env server ∧ s.trans[i]? = some tr ∧ tr.parent = none

/-- no call of the stretch is such a commit -/
def NoRootCommit (s : TState V) : List (TOp V) → Prop
  | [] => True
  | op :: ops => ¬ RootCommit s op ∧ NoRootCommit (s.step lower typeOf op).1 ops

/-- **C13.** Only committing an outermost transaction can send anything or change the original object. -/
theorem c13_only_commit_sends (s : TState V) (op : TOp V) (h : ¬ RootCommit s op) :
    (s.step lower typeOf op).1.sent = s.sent ∧ (s.step lower typeOf op).1.orig = s.orig := by
  cases op with
  | «begin» p => cases p with
    | none => exact ⟨rfl, rfl⟩
    | some p => simp only [TState.step]; split <;> exact ⟨rfl, rfl⟩
  | modify i env mods => simp only [TState.step]; split <;> exact ⟨rfl, rfl⟩
  | refresh i got => simp only [TState.step]; split <;> exact ⟨rfl, rfl⟩
  | exit i => simp only [TState.step]; split <;> exact ⟨rfl, rfl⟩
  | commit i env server =>
    simp only [TState.step]
    split
    · exact ⟨rfl, rfl⟩
    · rename_i tr htr
      split
      · rename_i hp
        exact absurd ⟨i, env, server, tr, rfl, htr, hp⟩ h
      · split <;> exact ⟨rfl, rfl⟩

/-- **C13.** Between beginning a transaction and committing it nothing is sent and the original object is unchanged, whatever
is done in the transaction and its checkpoints. -/
theorem c13_nothing_sent (s : TState V) (ops : List (TOp V)) (h : NoRootCommit lower typeOf s ops) :
    (s.run lower typeOf ops).sent = s.sent ∧ (s.run lower typeOf ops).orig = s.orig := by
  induction ops generalizing s with
  | nil => exact ⟨rfl, rfl⟩
  | cons op ops ih =>
    have h1 := c13_only_commit_sends lower typeOf s op h.1
    have h2 := ih _ h.2
    exact ⟨h2.1.trans h1.1, h2.2.trans h1.2⟩

/-- **C13.** The staged list is the concatenation of what was staged, in order: over any quiet stretch it grows by exactly the
mods of the calls on that transaction. -/
theorem c13_staged_in_order (t : Nat) (ops : List (TOp V)) (s : TState V) (tr : Trans V) (ht : s.trans[t]? = some tr)
    (hq : Quiet lower typeOf t s ops) :
    ∃ tr', (s.run lower typeOf ops).trans[t]? = some tr' ∧ tr'.parent = tr.parent ∧
      tr'.modlist = tr.modlist ++ ops.flatMap (modsFor t) := by
  induction ops generalizing s tr with
  | nil => exact ⟨tr, ht, rfl, by simp⟩
  | cons op ops ih =>
    suffices h : ∃ tr1, (s.step lower typeOf op).1.trans[t]? = some tr1 ∧ tr1.parent = tr.parent ∧
        tr1.modlist = tr.modlist ++ modsFor t op by
      obtain ⟨tr1, h1, h2, h3⟩ := h
      obtain ⟨tr', h4, h5, h6⟩ := ih _ tr1 h1 hq.2
      exact ⟨tr', h4, h5.trans h2, by rw [h6, h3]; simp⟩
    have hlt : t < s.trans.length := by
      rcases Nat.lt_or_ge t s.trans.length with h | h
      · exact h
      · rw [List.getElem?_eq_none h] at ht; simp at ht
    cases op with
    | «begin» p =>
      cases p with
      | none => exact ⟨tr, by simp [TState.step, List.getElem?_append_left hlt, ht], rfl, by simp [modsFor]⟩
      | some p =>
        simp only [TState.step]
        split
        · exact ⟨tr, ht, rfl, by simp [modsFor]⟩
        · exact ⟨tr, by simp [List.getElem?_append_left hlt, ht], rfl, by simp [modsFor]⟩
    | refresh i got =>
      simp only [TState.step]
      split
      · exact ⟨tr, ht, rfl, by simp [modsFor]⟩
      · rename_i ti hti
        by_cases hi : i = t
        · subst hi
          rw [ht] at hti; simp only [Option.some.injEq] at hti; subst hti
          exact ⟨_, List.getElem?_set_self hlt, rfl, by simp [modsFor]⟩
        · exact ⟨tr, by rw [List.getElem?_set_ne hi]; exact ht, rfl, by simp [modsFor]⟩
    | exit i =>
      have hi : i ≠ t := hq.1
      simp only [TState.step]
      split
      · exact ⟨tr, ht, rfl, by simp [modsFor]⟩
      · exact ⟨tr, by rw [List.getElem?_set_ne hi]; exact ht, rfl, by simp [modsFor]⟩
    | modify i env mods =>
      by_cases hi : i = t
      · subst hi
        have hv := hq.1 rfl tr ht
        simp only [TState.step, ht, transModify, hv]
        exact ⟨_, List.getElem?_set_self hlt, rfl, by simp [modsFor]⟩
      · simp only [TState.step]
        split
        · exact ⟨tr, ht, rfl, by simp [modsFor, hi]⟩
        · exact ⟨tr, by rw [List.getElem?_set_ne hi]; exact ht, rfl, by simp [modsFor, hi]⟩
    | commit i env server =>
      obtain ⟨hi, hpar⟩ := hq.1
      simp only [TState.step]
      split
      · exact ⟨tr, ht, rfl, by simp [modsFor]⟩
      · rename_i ti hti
        split
        · exact ⟨tr, by rw [List.getElem?_set_ne hi]; exact ht, rfl, by simp [modsFor]⟩
        · rename_i p hp
          have hpt : p ≠ t := by intro h; subst h; exact hpar ti hti hp
          split
          · exact ⟨tr, ht, rfl, by simp [modsFor]⟩
          · exact ⟨tr, by rw [List.getElem?_set_ne hi, List.getElem?_set_ne hpt]; exact ht, rfl, by simp [modsFor]⟩

/-- **C13.** What the validators reject is not staged and does not change the transaction. -/
theorem c13_rejected_not_staged (s : TState V) (t : Nat) (tr : Trans V) (ht : s.trans[t]? = some tr) (env : ObjEnv V)
    (mods : List (Mod V)) (e : Err) (h : runValidation env.validators (env.dn, mods, some tr.attrs) = .error e) :
    (s.step lower typeOf (.modify t env mods)).2 = .error e ∧
    (s.step lower typeOf (.modify t env mods)).1.trans[t]? = some tr := by
  have hlt : t < s.trans.length := by
    rcases Nat.lt_or_ge t s.trans.length with h | h
    · exact h
    · rw [List.getElem?_eq_none h] at ht; simp at ht
  simp only [TState.step, ht, transModify, h]
  exact ⟨trivial, List.getElem?_set_self hlt⟩

/-- **C13.** Committing an outermost transaction performs exactly one `modify` of the original object with the whole staged list:
it sends what that call sends (C08: at most one request), gives the original object the attributes that call gives it,
and on success empties the staged list. -/
theorem c13_commit_is_one_modify (s : TState V) (t : Nat) (tr : Trans V) (ht : s.trans[t]? = some tr) (hp : tr.parent = none)
    (env : ObjEnv V) (server : ModRequest V → Except Err Unit) :
    let r := env.modify lower typeOf server s.orig tr.modlist
    let s' := s.step lower typeOf (.commit t env server)
    s'.1.sent = s.sent ++ r.2.sent ∧ s'.1.orig = r.1 ∧ s'.2 = r.2.result ∧
    (r.2.result = .ok () → ∃ tr', s'.1.trans[t]? = some tr' ∧ tr'.modlist = [] ∧ tr'.parent = none) := by
  have hlt : t < s.trans.length := by
    rcases Nat.lt_or_ge t s.trans.length with h | h
    · exact h
    · rw [List.getElem?_eq_none h] at ht; simp at ht
  simp only [TState.step, ht, hp]
  refine ⟨trivial, trivial, trivial, ?_⟩
  intro hr
  rw [hr]
  exact ⟨_, List.getElem?_set_self hlt, rfl, rfl⟩

/-- the requests of a whole transaction that is begun, used and committed -/
theorem commit_after (s : TState V) (t : Nat) (tr : Trans V) (ht : s.trans[t]? = some tr) (hp : tr.parent = none)
    (hn : tr.modlist = []) (ops : List (TOp V)) (hq : Quiet lower typeOf t s ops) (hno : NoRootCommit lower typeOf s ops)
    (env : ObjEnv V) (server : ModRequest V → Except Err Unit) :
    ((s.run lower typeOf ops).step lower typeOf (.commit t env server)).1.sent = s.sent ++
      (env.modify lower typeOf server s.orig (ops.flatMap (modsFor t))).2.sent := by
  obtain ⟨tr', h1, h2, h3⟩ := c13_staged_in_order lower typeOf t ops s tr ht hq
  have h4 := c13_nothing_sent lower typeOf s ops hno
  have h5 := (c13_commit_is_one_modify lower typeOf (s.run lower typeOf ops) t tr' h1 (h2.trans hp) env server).1
  rw [h5, h4.1, h4.2, h3, hn, List.nil_append]

/-- **C13.** A whole transaction: begun on the object, any calls in it and in other transactions and checkpoints (none committing an
outermost transaction or a checkpoint of this one), then commit. Everything sent is one `modify` with the staged mods
concatenated in order. -/
theorem c13_transaction (s : TState V) (ops : List (TOp V)) (env : ObjEnv V) (server : ModRequest V → Except Err Unit)
    (hq : Quiet lower typeOf s.trans.length (s.step lower typeOf (.begin none)).1 ops)
    (hno : NoRootCommit lower typeOf (s.step lower typeOf (.begin none)).1 ops) :
    (s.run lower typeOf (.begin none :: ops ++ [.commit s.trans.length env server])).sent =
      s.sent ++ (env.modify lower typeOf server s.orig (ops.flatMap (modsFor s.trans.length))).2.sent := by
  have hrun : ∀ (a b : List (TOp V)) (s : TState V), s.run lower typeOf (a ++ b) = (s.run lower typeOf a).run lower typeOf b := by
    intro a
    induction a with
    | nil => intros; rfl
    | cons x xs ih => intro b s; exact ih b _
  rw [hrun]
  have := commit_after lower typeOf (s.step lower typeOf (.begin none)).1 s.trans.length ⟨none, [], copyAttrs lower s.orig⟩
    (by simp [TState.step]) rfl rfl ops hq hno env server
  exact this

/-! ### C14 -/

/-- **C14.** Leaving a transaction drops what was staged since the last commit: a later commit sends only what was staged after. -/
theorem c14_exit_discards (s : TState V) (t : Nat) (tr : Trans V) (ht : s.trans[t]? = some tr) (hp : tr.parent = none)
    (ops : List (TOp V)) (hq : Quiet lower typeOf t (s.step lower typeOf (.exit t)).1 ops)
    (hno : NoRootCommit lower typeOf (s.step lower typeOf (.exit t)).1 ops)
    (env : ObjEnv V) (server : ModRequest V → Except Err Unit) :
    (s.run lower typeOf (.exit t :: ops ++ [.commit t env server])).sent = s.sent ++
      (env.modify lower typeOf server s.orig (ops.flatMap (modsFor t))).2.sent := by
  have hlt : t < s.trans.length := by
    rcases Nat.lt_or_ge t s.trans.length with h | h
    · exact h
    · rw [List.getElem?_eq_none h] at ht; simp at ht
  have hrun : ∀ (a b : List (TOp V)) (s : TState V), s.run lower typeOf (a ++ b) = (s.run lower typeOf a).run lower typeOf b := by
    intro a
    induction a with
    | nil => intros; rfl
    | cons x xs ih => intro b s; exact ih b _
  rw [hrun]
  have hs : (s.step lower typeOf (.exit t)).1.trans[t]? = some { tr with modlist := [] } := by
    simp only [TState.step, ht]; exact List.getElem?_set_self hlt
  have := commit_after lower typeOf (s.step lower typeOf (.exit t)).1 t _ hs hp rfl ops hq hno env server
  have h2 := c13_only_commit_sends lower typeOf s (.exit t) (by rintro ⟨_, _, _, _, h, _⟩; simp at h)
  rw [h2.1, h2.2] at this
  exact this

/-- **C14.** Beginning a checkpoint, using it in any way and leaving it without a commit leaves the outer transaction's staged list as
it was (apart from what was staged in the outer one meanwhile). -/
theorem c14_checkpoint_left (s : TState V) (t : Nat) (tr : Trans V) (ht : s.trans[t]? = some tr) (ops : List (TOp V))
    (hq : Quiet lower typeOf t (s.step lower typeOf (.begin (some t))).1 (ops ++ [.exit s.trans.length]))
    (hinner : ops.flatMap (modsFor t) = []) :
    ∃ tr', (s.run lower typeOf (.begin (some t) :: ops ++ [.exit s.trans.length])).trans[t]? = some tr' ∧
      tr'.modlist = tr.modlist := by
  have hlt : t < s.trans.length := by
    rcases Nat.lt_or_ge t s.trans.length with h | h
    · exact h
    · rw [List.getElem?_eq_none h] at ht; simp at ht
  have hb : (s.step lower typeOf (.begin (some t))).1.trans[t]? = some tr := by
    simp [TState.step, ht, List.getElem?_append_left hlt]
  obtain ⟨tr', h1, _, h3⟩ := c13_staged_in_order lower typeOf t _ _ tr hb hq
  refine ⟨tr', h1, ?_⟩
  rw [h3]
  simp [List.flatMap_append, hinner, modsFor]

/-- **C14.** Committing a checkpoint whose staged list the validators accept appends exactly that list to the outer transaction's
staged list; if that succeeds the checkpoint's list is emptied; nothing is sent and the original object is unchanged.
If the validators refuse it, neither list changes. -/
theorem c14_checkpoint_commit (s : TState V) (c p : Nat) (tc tp : Trans V) (hc : s.trans[c]? = some tc) (hpar : tc.parent = some p)
    (hp : s.trans[p]? = some tp) (hne : c ≠ p) (env : ObjEnv V) (server : ModRequest V → Except Err Unit) :
    let s' := s.step lower typeOf (.commit c env server)
    s'.1.sent = s.sent ∧ s'.1.orig = s.orig ∧
    (runValidation env.validators (env.dn, tc.modlist, some tp.attrs) = .ok () →
      (∃ tp', s'.1.trans[p]? = some tp' ∧ tp'.modlist = tp.modlist ++ tc.modlist) ∧
      (s'.2 = .ok () → ∃ tc', s'.1.trans[c]? = some tc' ∧ tc'.modlist = [])) ∧
    (∀ e, runValidation env.validators (env.dn, tc.modlist, some tp.attrs) = .error e →
      s'.2 = .error e ∧ s'.1.trans[p]? = some tp ∧ s'.1.trans[c]? = some tc) := by
  have hltc : c < s.trans.length := by
    rcases Nat.lt_or_ge c s.trans.length with h | h
    · exact h
    · rw [List.getElem?_eq_none h] at hc; simp at hc
  have hltp : p < s.trans.length := by
    rcases Nat.lt_or_ge p s.trans.length with h | h
    · exact h
    · rw [List.getElem?_eq_none h] at hp; simp at hp
  simp only [TState.step, hc, hpar, hp]
  refine ⟨trivial, trivial, ?_, ?_⟩
  · intro hv
    simp only [transModify, hv]
    refine ⟨?_, ?_⟩
    · rw [List.getElem?_set_ne hne]
      exact ⟨_, List.getElem?_set_self hltp, rfl⟩
    · intro hok
      rw [hok]
      exact ⟨_, List.getElem?_set_self (by simpa using hltc), rfl⟩
  · intro e hv
    simp only [transModify, hv]
    refine ⟨trivial, ?_, ?_⟩
    · rw [List.getElem?_set_ne hne]
      exact List.getElem?_set_self hltp
    · have hl : tc = ⟨some p, tc.modlist, tc.attrs⟩ := by cases tc; simp_all
      rw [List.getElem?_set_self (by simpa using hltc)]
      exact congrArg some hl.symm

/-- parents come before their checkpoints, so `c14_checkpoint_commit` applies to every reachable checkpoint -/
theorem c14_reachable (d : AttrsDict V) (ops : List (TOp V)) :
    ∀ (c : Nat) (tc : Trans V) (p : Nat), ((TState.init d).run lower typeOf ops).trans[c]? = some tc → tc.parent = some p → p < c := by
  suffices h : ∀ (ops : List (TOp V)) (s : TState V), (∀ (c : Nat) (tc : Trans V) (p : Nat), s.trans[c]? = some tc → tc.parent = some p → p < c) →
      ∀ (c : Nat) (tc : Trans V) (p : Nat), (s.run lower typeOf ops).trans[c]? = some tc → tc.parent = some p → p < c by
    exact h ops _ (by intro c tc p hh; simp [TState.init] at hh)
  intro ops
  induction ops with
  | nil => intro s h; exact h
  | cons op ops ih =>
    intro s h
    apply ih
    have hset : ∀ (l : List (Trans V)) (i : Nat) (x : Trans V), (∀ (c : Nat) (tc : Trans V) (p : Nat), l[c]? = some tc → tc.parent = some p → p < c) →
        (∀ ti, l[i]? = some ti → x.parent = ti.parent) →
        ∀ (c : Nat) (tc : Trans V) (p : Nat), (l.set i x)[c]? = some tc → tc.parent = some p → p < c := by
      intro l i x hl hx c tc p hc hp
      by_cases hi : i = c
      · subst hi
        by_cases hlt : i < l.length
        · rw [List.getElem?_set_self hlt] at hc
          simp only [Option.some.injEq] at hc
          subst hc
          have := hx l[i] (List.getElem?_eq_getElem hlt)
          exact hl i l[i] p (List.getElem?_eq_getElem hlt) (this ▸ hp)
        · rw [List.getElem?_eq_none (by simp; omega)] at hc; simp at hc
      · rw [List.getElem?_set_ne hi] at hc
        exact hl c tc p hc hp
    have happ : ∀ (x : Trans V), (∀ p, x.parent = some p → p < s.trans.length) →
        ∀ (c : Nat) (tc : Trans V) (p : Nat), (s.trans ++ [x])[c]? = some tc → tc.parent = some p → p < c := by
      intro x hx c tc p hc hp
      by_cases hlt : c < s.trans.length
      · rw [List.getElem?_append_left hlt] at hc; exact h c tc p hc hp
      · by_cases he : c = s.trans.length
        · subst he
          simp only [List.getElem?_concat_length, Option.some.injEq] at hc
          subst hc; exact hx p hp
        · rw [List.getElem?_eq_none (by simp; omega)] at hc; simp at hc
    cases op with
    | «begin» p =>
      cases p with
      | none => exact happ _ (by simp)
      | some p =>
        simp only [TState.step]
        split
        · exact h
        · rename_i t ht
          apply happ
          intro q hq
          simp only [Option.some.injEq] at hq
          subst hq
          rcases Nat.lt_or_ge p s.trans.length with hh | hh
          · exact hh
          · rw [List.getElem?_eq_none hh] at ht; simp at ht
    | modify i env mods =>
      simp only [TState.step]
      split
      · exact h
      · rename_i t ht
        apply hset _ _ _ h
        intro ti hti
        rw [ht] at hti; simp only [Option.some.injEq] at hti; subst hti
        simp only [transModify]; split <;> rfl
    | refresh i got =>
      simp only [TState.step]
      split
      · exact h
      · rename_i t ht
        apply hset _ _ _ h
        intro ti hti
        rw [ht] at hti; simp only [Option.some.injEq] at hti; subst hti; rfl
    | exit i =>
      simp only [TState.step]
      split
      · exact h
      · rename_i t ht
        apply hset _ _ _ h
        intro ti hti
        rw [ht] at hti; simp only [Option.some.injEq] at hti; subst hti; rfl
    | commit i env server =>
      simp only [TState.step]
      split
      · exact h
      · rename_i t ht
        split
        · apply hset _ _ _ h
          intro ti hti
          rw [ht] at hti; simp only [Option.some.injEq] at hti; subst hti; rfl
        · rename_i p hp
          split
          · exact h
          · rename_i tp htp
            apply hset
            · apply hset _ _ _ h
              intro ti hti
              rw [htp] at hti; simp only [Option.some.injEq] at hti; subst hti
              simp only [transModify]; split <;> rfl
            · intro ti hti
              have hip : p ≠ i := fun e => by have := h i t p ht hp; omega
              rw [List.getElem?_set_ne hip] at hti
              rw [ht] at hti; simp only [Option.some.injEq] at hti; subst hti; rfl

/-! #### instances -/

def tenv : ObjEnv Nat := ⟨false, [fun x => if x.2.1.length > 2 then .error .ldapValidation else .ok ()], ⟨false, true⟩, .ok (), str "cn=x", false⟩
def tdict : AttrsDict Nat := CIDict.setItem (List.map Char.toLower) CIDict.empty (str "cn") [1, 2]

/-- begin, stage, checkpoint left, checkpoint committed, stage, commit: one request, in order, without the dropped
checkpoint's change -/
def thist : List (TOp Nat) :=
  [.begin none, .modify 0 tenv [⟨.add, str "cn", .list [3]⟩],
   .begin (some 0), .modify 1 tenv [⟨.delete, str "cn", .list [1]⟩], .exit 1,
   .begin (some 0), .modify 2 tenv [⟨.delete, str "CN", .list [2]⟩], .commit 2 tenv (fun _ => .ok ()),
   .modify 0 tenv [⟨.replace, str "sn", .list [9]⟩]]
def tenv2 : ObjEnv Nat := { tenv with validators := [] }
example : ((TState.init tdict).run (List.map Char.toLower) (fun _ => .ok .default) (thist ++ [.commit 0 tenv2 (fun _ => .ok ())])).sent
    = [⟨str "cn=x", [⟨.add, str "cn", [3]⟩, ⟨.delete, str "CN", [2]⟩, ⟨.replace, str "sn", [9]⟩]⟩] := by decide
/-- the hypotheses of `c13_transaction` hold for a history with a checkpoint that is left -/
example :
    let ops : List (TOp Nat) := [.modify 0 tenv [⟨.add, str "cn", .list [3]⟩], .begin (some 0),
      .modify 1 tenv [⟨.delete, str "cn", .list [1]⟩], .exit 1, .modify 0 tenv [⟨.replace, str "sn", .list [9]⟩]]
    let s := ((TState.init tdict).step (List.map Char.toLower) (fun _ => .ok .default) (.begin none)).1
    Quiet (List.map Char.toLower) (fun _ => .ok .default) 0 s ops ∧ NoRootCommit (List.map Char.toLower) (fun _ => .ok .default) s ops := by
  refine ⟨⟨?_, trivial, ?_, ?_, ?_, trivial⟩, ⟨?_, ?_, ?_, ?_, ?_, trivial⟩⟩
  · intro _ tr _; simp [tenv, runValidation]
  · intro h; simp at h
  · decide
  · intro _ tr _; simp [tenv, runValidation]
  all_goals rintro ⟨_, _, _, _, h, _⟩; simp at h
example : ((TState.init tdict).run (List.map Char.toLower) (fun _ => .ok .default) thist).sent = [] ∧
    AttrsDict.getAttr (List.map Char.toLower) ((TState.init tdict).run (List.map Char.toLower) (fun _ => .ok .default) thist).orig (str "cn") = [1, 2] := by
  decide

/-- A failed commit keeps the staged Mods, but `DELETE_ALL` has been rewritten to an empty list: committing again with the default
options silently skips the deletion. -/
theorem c14_failed_commit_retry :
    let h := [.begin none, .modify 0 tenv [⟨.delete, str "cn", .deleteAll⟩],
      .commit 0 tenv (fun _ => .error .ldapError), .commit 0 tenv (fun _ => .ok ())]
    let s := (TState.init tdict).run (List.map Char.toLower) (fun _ => .ok .default) h
    s.sent = [⟨str "cn=x", [⟨.delete, str "cn", []⟩]⟩] ∧
    AttrsDict.getAttr (List.map Char.toLower) s.orig (str "cn") = [] := by decide

end Laurelin.Props
