import Verif.Props.TransEffect
import Verif.Props.ApplySent
import Verif.Spec.TransWire
/-!
# C95 transactions on a connection
-/
set_option linter.unusedSectionVars false
namespace Laurelin.Props
open Laurelin Codec Asn1 Rfc4511 Spec OverWire
open Laurelin.Spec.OverWireS (Conforms readOp)
open Spec.TransWireS
open Laurelin.Spec.ApplyS (recorded)
open WireP (codec shown)
namespace TranP
open OverWireP
variable {V R S : Type}

section
variable (peer : Peer S)

theorem fetch_log (env : OverWire.Env V R) (l : Link Received.Decoded (S × List Bytes)) (attrs : List Str) :
    let x := fetch codec (fun d => d.1.1) (recorded peer) env l attrs
    ∃ reads : List Bytes, x.1.peer.2 = l.peer.2 ++ reads ∧ reads.length ≤ 1 ∧ ∀ bs ∈ reads, ReadOf env.obj.dn bs := by
  intro x
  simp only [x, fetch]
  cases hs : ldapSearch { env.conn with unbound := env.obj.unbound } { base := env.obj.dn, scope := .base, attrs := some attrs, limit := 2 } with
  | error e => exact ⟨[], by simp, by simp, nofun⟩
  | ok sent =>
    simp only []
    cases hsend : send l.st.next (Call.search sent.req).op sent.ctrls with
    | none => exact ⟨[], by simp, by simp, nofun⟩
    | some bs =>
      obtain ⟨f, hreq⟩ := read_request _ _ _ _ hs
      obtain ⟨o, ho, hv, _, henc⟩ := c79_sent _ _ _ _ hsend
      rw [hreq] at ho
      cases ho
      refine ⟨[bs], rfl, Nat.le_refl _, fun b hb => ?_⟩
      rw [List.mem_singleton.1 hb]
      exact ⟨_, _, _, _, attrs, _, hv, henc⟩

variable (lower : Str → Str) (typeOf : TypeOf AVal)

theorem refresh_log (env : OverWire.Env V R) (l : Link Received.Decoded (S × List Bytes)) (d : AttrsDict AVal) (attrs : List Str) :
    let x := OverWire.refresh codec (fun d => d.1.1) (recorded peer) env lower l d attrs
    ∃ reads : List Bytes, x.1.peer.2 = l.peer.2 ++ reads ∧ reads.length ≤ 1 ∧ ∀ bs ∈ reads, ReadOf env.obj.dn bs := by
  intro x
  have h := fetch_log peer env l attrs
  simp only [x, OverWire.refresh]
  revert h
  rcases fetch codec (fun d => d.1.1) (recorded peer) env l attrs with ⟨l', e | got⟩ <;> exact fun h => h

theorem prepare_log (env : OverWire.Env V R) (l : Link Received.Decoded (S × List Bytes)) (d : AttrsDict AVal) (attrs : List Str) :
    let x := OverWire.prepare codec (fun d => d.1.1) (recorded peer) env lower l d attrs
    ∃ reads : List Bytes, x.1.peer.2 = l.peer.2 ++ reads ∧ reads.length ≤ 1 ∧ ∀ bs ∈ reads, ReadOf env.obj.dn bs := by
  intro x
  simp only [x, OverWire.prepare, OverWire.refreshMissing]
  split
  · exact ⟨[], by simp, by simp, nofun⟩
  · split
    · exact refresh_log peer lower env l d _
    · exact ⟨[], by simp, by simp, nofun⟩

theorem stage_log (env : OverWire.Env V R) (l : Link Received.Decoded (S × List Bytes)) (t : Trans AVal) (c : Stage) :
    let x := stageOn codec (fun d => d.1.1) (recorded peer) lower typeOf env l t c
    ∃ reads : List Bytes, x.1.peer.2 = l.peer.2 ++ reads ∧ reads.length ≤ 1 ∧ ∀ bs ∈ reads, ReadOf env.obj.dn bs := by
  intro x
  cases c with
  | modify mods => exact ⟨[], by simp [x, stageOn], by simp, nofun⟩
  | addAttrs new =>
    have h := prepare_log peer lower env l t.attrs (new.map Prod.fst)
    simp only [x, stageOn]
    revert h
    rcases OverWire.prepare codec (fun d => d.1.1) (recorded peer) env lower l t.attrs (new.map Prod.fst) with ⟨l1, e | d1⟩
    · exact fun h => h
    · dsimp only
      cases addModlist lower typeOf d1 (new.map (fun kv => (kv.1, Vals.list kv.2))) with
      | error e => exact fun h => h
      | ok mods => exact fun h => h
  | replaceAttrs new =>
    simp only [x, stageOn]
    cases modlist .replace (new.map (fun kv => (kv.1, RawVals.vals kv.2))) with
    | error e => exact ⟨[], by simp, by simp, nofun⟩
    | ok mods => exact ⟨[], by simp, by simp, nofun⟩
  | deleteAttrs del =>
    have h := prepare_log peer lower env l t.attrs (del.map Prod.fst)
    simp only [x, stageOn]
    revert h
    rcases OverWire.prepare codec (fun d => d.1.1) (recorded peer) env lower l t.attrs (del.map Prod.fst) with ⟨l1, e | d1⟩
    · exact fun h => h
    · dsimp only
      cases deleteModlist lower typeOf d1 del with
      | error e => exact fun h => h
      | ok mods => exact fun h => h
  | refresh attrs =>
    have h := refresh_log peer lower env l t.attrs attrs
    simp only [x, stageOn]
    revert h
    rcases OverWire.refresh codec (fun d => d.1.1) (recorded peer) env lower l t.attrs attrs with ⟨l1, e | d1⟩ <;> exact fun h => h

/-- `commit` of a transaction that was begun on the object -/
def RootCommit {M S : Type} (s : TLink M S) : TCall V R → Prop
  | .commit i _ => ∃ t, s.trans[i]? = some t ∧ t.parent = none
  | _ => False

/-- the DN of the object, in the call -/
def For (dn : Str) : TCall V R → Prop
  | .stage _ env _ => env.obj.dn = dn
  | .commit _ env => env.obj.dn = dn
  | _ => True

/-- no call of the history commits a transaction that was begun on the object -/
def NoCommit (dn : Str) (peer : Peer S) (s : TLink Received.Decoded S) : List (TCall V R) → Prop
  | [] => True
  | c :: cs => For dn c ∧ ¬ RootCommit s c ∧ NoCommit dn peer (s.step codec (fun d => d.1.1) peer lower typeOf c).1 cs

theorem step_log (dn : Str) (s : TLink Received.Decoded (S × List Bytes)) (c : TCall V R) (hdn : For dn c) (hn : ¬ RootCommit s c) :
    let x := (s.step codec (fun d => d.1.1) (recorded peer) lower typeOf c).1
    x.orig = s.orig ∧ ∃ reads : List Bytes, x.link.peer.2 = s.link.peer.2 ++ reads ∧ reads.length ≤ 1 ∧ ∀ bs ∈ reads, ReadOf dn bs := by
  have nothing : ∃ reads : List Bytes, s.link.peer.2 = s.link.peer.2 ++ reads ∧ reads.length ≤ 1 ∧ ∀ bs ∈ reads, ReadOf dn bs := ⟨[], by simp, by simp, nofun⟩
  cases c with
  | begin p =>
    cases p with
    | none => exact ⟨rfl, nothing⟩
    | some p =>
      simp only [TLink.step]
      cases s.trans[p]? with
      | none => exact ⟨rfl, nothing⟩
      | some t => exact ⟨rfl, nothing⟩
  | stage i env c =>
    simp only [TLink.step]
    cases s.trans[i]? with
    | none => exact ⟨rfl, nothing⟩
    | some t =>
      refine ⟨rfl, ?_⟩
      have := stage_log peer lower typeOf env s.link t c
      rw [show env.obj.dn = dn from hdn] at this
      exact this
  | commit i env =>
    simp only [TLink.step]
    cases ht : s.trans[i]? with
    | none => exact ⟨rfl, nothing⟩
    | some t =>
      dsimp only
      cases hp : t.parent with
      | none => exact absurd ⟨t, ht, hp⟩ hn
      | some p =>
        dsimp only
        cases s.trans[p]? with
        | none => exact ⟨rfl, nothing⟩
        | some tp => exact ⟨rfl, nothing⟩
  | exit i =>
    simp only [TLink.step]
    cases s.trans[i]? with
    | none => exact ⟨rfl, nothing⟩
    | some t => exact ⟨rfl, nothing⟩

end
end TranP

open TranP

/-- **C95 (until commit).** Whatever the other side sends: any history of calls on transactions and checkpoints of an object (begun, staged, refreshed, checkpoints committed, left), as long as no transaction begun
on the object itself is committed, writes nothing to the connection but requests to read the object's entry, at most one per call, and leaves the object as it was. -/
theorem c95_reads {V R S : Type} (peer : Peer S) (lower : Str → Str) (typeOf : TypeOf AVal) (dn : Str) (calls : List (TCall V R)) : ∀ (s : TLink Received.Decoded (S × List Bytes)),
    NoCommit lower typeOf dn (recorded peer) s calls →
    let f := s.run codec (fun d => d.1.1) (recorded peer) lower typeOf calls
    f.orig = s.orig ∧ ∃ reads : List Bytes, f.link.peer.2 = s.link.peer.2 ++ reads ∧ reads.length ≤ calls.length ∧ ∀ bs ∈ reads, ReadOf dn bs := by
  induction calls with
  | nil => intro s _; exact ⟨rfl, [], by simp [TLink.run], by simp, nofun⟩
  | cons c cs ih =>
    intro s ⟨h1, h2, h3⟩
    obtain ⟨k1, r1, k2, k3, k4⟩ := step_log peer lower typeOf dn s c h1 h2
    obtain ⟨g1, r2, g2, g3, g4⟩ := ih _ h3
    refine ⟨g1.trans k1, r1 ++ r2, ?_, ?_, ?_⟩
    · show (TLink.run codec (fun d => d.1.1) (recorded peer) lower typeOf (s.step codec (fun d => d.1.1) (recorded peer) lower typeOf c).1 cs).link.peer.2 = _
      rw [g2, k2, List.append_assoc]
    · simp only [List.length_append, List.length_cons]; omega
    · intro bs hb
      rcases List.mem_append.1 hb with hb | hb
      · exact k4 bs hb
      · exact g4 bs hb

namespace TranP
open OverWireP
variable {V R S : Type}

/-- the same modification, but for DELETE_ALL having become an empty list -/
def Same (a b : Mod AVal) : Prop := a.op = b.op ∧ a.attr = b.attr ∧ (a.vals = b.vals ∨ (a.vals = .deleteAll ∧ b.vals = .list []))

theorem same_all (l : List (Mod AVal)) : Pairwise2 Same l l := by
  induction l with
  | nil => exact .nil
  | cons a l ih => exact .cons ⟨rfl, rfl, .inl rfl⟩ ih

theorem build_same (o : EmptyOpts) (mods : List (Mod AVal)) : Pairwise2 Same mods (buildChanges o mods).1 := by
  induction mods with
  | nil => exact .nil
  | cons md rest ih =>
    obtain ⟨op, attr, vals⟩ := md
    match op, vals with
    | .add, .deleteAll => exact same_all _
    | .add, .list l => exact .cons ⟨rfl, rfl, .inl rfl⟩ ih
    | .replace, .deleteAll => exact .cons ⟨rfl, rfl, .inr ⟨rfl, rfl⟩⟩ ih
    | .delete, .deleteAll => exact .cons ⟨rfl, rfl, .inr ⟨rfl, rfl⟩⟩ ih
    | .replace, .list (v :: l) => exact .cons ⟨rfl, rfl, .inl rfl⟩ ih
    | .delete, .list (v :: l) => exact .cons ⟨rfl, rfl, .inl rfl⟩ ih
    | .replace, .list [] => exact (by
        simp only [buildChanges]
        split
        · exact same_all _
        · split
          · exact .cons ⟨rfl, rfl, .inl rfl⟩ ih
          · exact .cons ⟨rfl, rfl, .inl rfl⟩ ih)
    | .delete, .list [] => exact (by
        simp only [buildChanges]
        split
        · exact same_all _
        · split
          · exact .cons ⟨rfl, rfl, .inl rfl⟩ ih
          · exact .cons ⟨rfl, rfl, .inl rfl⟩ ih)

theorem ldapModify_out (unbound : Bool) (validators : List ((Str × List (Mod AVal) × Option (AttrsDict AVal)) → Except Err Unit)) (o : EmptyOpts) (ctrls : Except Err Unit)
    (srv : ModRequest AVal → Except Err Unit) (dn : Str) (mods : List (Mod AVal)) (cur : Option (AttrsDict AVal)) :
    let r := ldapModify unbound validators o ctrls srv dn mods cur
    Pairwise2 Same mods r.mods ∧
    ((r.sent = [] ∧ (r.result = .ok () → mods.filterMap (DirectoryS.changeOf o) = [])) ∨
      ∃ cs, r.sent = [⟨dn, cs⟩] ∧ cs.map toBytes = mods.filterMap (DirectoryS.changeOf o) ∧ r.result = srv ⟨dn, cs⟩) := by
  intro r
  simp only [r, ldapModify]
  split
  · split
    · exact ⟨same_all _, .inl ⟨rfl, nofun⟩⟩
    · split
      · exact ⟨same_all _, .inl ⟨rfl, nofun⟩⟩
      · cases hb : (buildChanges o mods).2 with
        | error e => exact ⟨build_same o mods, .inl ⟨rfl, nofun⟩⟩
        | ok cs =>
          have hs := DirP.changes_sent o mods cs hb
          dsimp only
          by_cases hl : cs.length > 0
          · rw [if_pos hl]
            cases ctrls with
            | error e => exact ⟨build_same o mods, .inl ⟨rfl, nofun⟩⟩
            | ok u => exact ⟨build_same o mods, .inr ⟨cs, rfl, hs, rfl⟩⟩
          · rw [if_neg hl]
            refine ⟨build_same o mods, .inl ⟨rfl, fun _ => ?_⟩⟩
            have : cs = [] := by
              cases cs with
              | nil => rfl
              | cons => simp at hl
            rw [← hs, this]; rfl
  · rename_i hl
    have : mods = [] := by
      cases mods with
      | nil => rfl
      | cons => simp at hl
    subst this
    exact ⟨.nil, .inl ⟨rfl, fun _ => rfl⟩⟩

theorem send_log (peer : Peer S) (env : OverWire.Env V R) (l : Link Received.Decoded (S × List Bytes)) (rq : ModRequest AVal) :
    let x := sendModify codec (fun d => d.1.1) (recorded peer) env l rq
    (x.1.peer.2 = l.peer.2 ∧ ∃ e, x.2 = .error e) ∨ ∃ bs, x.1.peer.2 = l.peer.2 ++ [bs] ∧ ModifyOf rq.dn (rq.changes.map toBytes) bs := by
  intro x
  simp only [x, sendModify]
  cases hsend : send l.st.next (Call.modify rq).op env.ctrls with
  | none => exact .inl ⟨rfl, _, rfl⟩
  | some bs =>
    obtain ⟨o, ho, hv, _, henc⟩ := c79_sent _ _ _ _ hsend
    cases ho
    have hop : Spec.Wire.Op.modifyRequest (utf8Enc rq.dn) (rq.changes.map (fun c => (Spec.Wire.modNumber c.op, Spec.Wire.ofAttr (c.attr, c.vals)))) =
        Spec.OverWireS.modifyOp rq.dn (rq.changes.map toBytes) := by
      simp only [Spec.OverWireS.modifyOp, List.map_map]
      rfl
    rw [hop] at hv henc
    exact .inr ⟨bs, rfl, _, _, hv, henc⟩

end TranP

/-- **C95 (commit).** Whatever the other side sends: committing a transaction begun on the object writes nothing, or one message, a modify request for the object's DN with all the staged changes in order (less the empty lists that the
connection ignores); if it returns and has written nothing then there was nothing to be changed. If it returns, nothing is staged any more; if it raises, the same modifications are still staged, and the object is as it was
unless the request has been written. No other transaction is affected. -/
theorem c95_commit {V R S : Type} (peer : Peer S) (lower : Str → Str) (typeOf : TypeOf AVal) (s : TLink Received.Decoded (S × List Bytes)) (i : Nat) (t : Trans AVal) (ht : s.trans[i]? = some t)
    (hp : t.parent = none) (env : OverWire.Env V R) :
    let r := s.step codec (fun d => d.1.1) (recorded peer) lower typeOf (.commit i env)
    let changes := t.modlist.filterMap (DirectoryS.changeOf env.obj.opts)
    ((r.1.link.peer.2 = s.link.peer.2 ∧ (r.2 = .ok () → changes = []) ∧ (∀ e, r.2 = .error e → changes ≠ [] → r.1.orig = s.orig)) ∨
      ∃ bs, r.1.link.peer.2 = s.link.peer.2 ++ [bs] ∧ ModifyOf env.obj.dn changes bs) ∧
    (∃ t', r.1.trans[i]? = some t' ∧ t'.attrs = t.attrs ∧ t'.parent = t.parent ∧ (r.2 = .ok () → t'.modlist = []) ∧ ∀ e, r.2 = .error e → Pairwise2 Same t.modlist t'.modlist) ∧
    ∀ j, j ≠ i → r.1.trans[j]? = s.trans[j]? := by
  obtain ⟨par, ml, ats⟩ := t
  obtain rfl : par = none := hp
  generalize ht0 : (⟨none, ml, ats⟩ : Trans AVal) = t at *
  intro r changes
  let srv := fun rq => (sendModify codec (fun d => d.1.1) (recorded peer) env s.link rq).2
  let m := env.obj.modify lower typeOf srv s.orig t.modlist
  have hr : r = (⟨m.2.sent.foldl (fun l rq => (sendModify codec (fun d => d.1.1) (recorded peer) env l rq).1) s.link, m.1,
      s.trans.set i { t with modlist := match m.2.result with | .ok _ => [] | .error _ => m.2.mods }⟩, m.2.result) := by
    simp only [r, TLink.step, ht]
    subst ht0
    rfl
  obtain ⟨h1, h2⟩ := ldapModify_out env.obj.unbound env.obj.validators env.obj.opts env.obj.ctrls srv env.obj.dn t.modlist (some s.orig)
  have hm : m = objModify lower typeOf env.obj.unbound env.obj.validators env.obj.opts env.obj.ctrls srv env.obj.dn s.orig t.modlist := rfl
  have hparts : m.2.sent = (ldapModify env.obj.unbound env.obj.validators env.obj.opts env.obj.ctrls srv env.obj.dn t.modlist (some s.orig)).sent ∧
      m.2.mods = (ldapModify env.obj.unbound env.obj.validators env.obj.opts env.obj.ctrls srv env.obj.dn t.modlist (some s.orig)).mods ∧
      (m.2.result = .ok () → (ldapModify env.obj.unbound env.obj.validators env.obj.opts env.obj.ctrls srv env.obj.dn t.modlist (some s.orig)).result = .ok ()) ∧
      (∀ e, (ldapModify env.obj.unbound env.obj.validators env.obj.opts env.obj.ctrls srv env.obj.dn t.modlist (some s.orig)).result = .error e → m.1 = s.orig) := by
    rw [hm]
    simp only [objModify]
    cases hres : (ldapModify env.obj.unbound env.obj.validators env.obj.opts env.obj.ctrls srv env.obj.dn t.modlist (some s.orig)).result with
    | error e => exact ⟨rfl, rfl, fun h => by rw [← hres]; exact h, fun _ _ => rfl⟩
    | ok u => exact ⟨rfl, rfl, fun _ => rfl, nofun⟩
  obtain ⟨g1, g2, g3, g4⟩ := hparts
  have hi : i < s.trans.length := by
    rcases Nat.lt_or_ge i s.trans.length with h | h
    · exact h
    · rw [List.getElem?_eq_none h] at ht; cases ht
  refine ⟨?_, ?_, ?_⟩
  · rw [hr]
    dsimp only
    rw [g1]
    rcases h2 with ⟨k1, k2⟩ | ⟨cs, k1, k2, k3⟩
    · left
      rw [k1]
      refine ⟨rfl, fun h => k2 (g3 h), fun e he hne => ?_⟩
      cases hres : (ldapModify env.obj.unbound env.obj.validators env.obj.opts env.obj.ctrls srv env.obj.dn t.modlist (some s.orig)).result with
      | error e' => exact g4 e' hres
      | ok u => exact absurd (k2 hres) hne
    · rw [k1]
      rcases send_log peer env s.link ⟨env.obj.dn, cs⟩ with ⟨q1, e, q2⟩ | ⟨bs, q1, q2⟩
      · left
        have hres : (ldapModify env.obj.unbound env.obj.validators env.obj.opts env.obj.ctrls srv env.obj.dn t.modlist (some s.orig)).result = .error e := k3.trans q2
        refine ⟨q1, fun h => ?_, fun _ _ _ => g4 e hres⟩
        have := g3 h
        rw [hres] at this
        cases this
      · right
        refine ⟨bs, q1, ?_⟩
        dsimp only at q2
        rw [k2] at q2
        exact q2
  · rw [hr]
    refine ⟨_, List.getElem?_set_self hi, rfl, rfl, fun h => ?_, fun e he => ?_⟩
    · dsimp only at h ⊢
      rw [h]
    · dsimp only at he ⊢
      rw [he, g2]
      exact h1
  · intro j hj
    rw [hr]
    exact List.getElem?_set_ne (fun h => hj h.symm)

end Laurelin.Props
