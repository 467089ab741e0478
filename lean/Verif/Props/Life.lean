import Verif.Spec.Life
import Verif.Props.OpenWire
import Verif.Props.Sasl
/-!
# C97 The life of a connection
-/
set_option linter.unusedSectionVars false
namespace Laurelin.Props
open Laurelin Codec Asn1 Rfc4511 Spec OverWire
open Laurelin.Spec.OverWireS (Answered)
open Laurelin.Spec.DirectoryS (Directory Serves SearchFor Shown Found Effect IsSearch changeOf)
open Spec.LifeS
open WireP (codec shown)
namespace LifeP
open Laurelin.Wire
section
variable {V R S : Type} {peer : Peer S}

/-- nothing is written, or one message with the next ID, for a request such as `Q` says -/
def Wrote (peer : Peer S) (l l' : Link Received.Decoded S) (Q : Spec.Wire.Op → Option (List Controls.Wire) → Prop) : Prop :=
  l'.peer = l.peer ∨ ∃ bs op ctrls, Q op ctrls ∧ (Spec.Wire.message l.st.next op ctrls).Valid ∧ (Spec.Wire.message l.st.next op ctrls).enc Spec.Wire.x690 bs ∧ l'.peer = (peer l.peer bs).1

theorem wrote_imp {l l' : Link Received.Decoded S} {Q Q' : Spec.Wire.Op → Option (List Controls.Wire) → Prop} (h : Wrote peer l l' Q) (hi : ∀ o c, Q o c → Q' o c) : Wrote peer l l' Q' :=
  h.imp id (fun ⟨bs, op, ctrls, h1, h2⟩ => ⟨bs, op, ctrls, hi _ _ h1, h2⟩)

theorem exchange_wrote (env : Api.Env V R) (l : Link Received.Decoded S) (c : Rfc4511.Call) :
    Wrote peer l (Api.exchange codec (fun d => d.1.1) peer env l c).1 (fun op ctrls => Spec.Wire.asks c = some op ∧ ctrls = env.wire) := by
  simp only [Api.exchange]
  cases hsend : send l.st.next c.op env.wire with
  | none => exact .inl rfl
  | some bs =>
    obtain ⟨o, ho, hv, _, henc⟩ := c79_sent _ _ _ _ hsend
    exact .inr ⟨bs, o, _, ⟨ho, rfl⟩, hv, henc, rfl⟩

theorem search_wrote (env : Api.Env V R) (l : Link Received.Decoded S) (a : SearchArgs V) :
    Wrote peer l (Api.searchAll codec (fun d => d.1.1) peer env l a).1 (fun op _ => SearchFor env.conn a op ∧ IsSearch op) := by
  simp only [Api.searchAll]
  cases hs : ldapSearch env.conn a with
  | error e => exact .inl rfl
  | ok sent' =>
    simp only []
    cases hsend : send l.st.next (Call.search sent'.req).op sent'.ctrls with
    | none => exact .inl rfl
    | some bs =>
      obtain ⟨o, ho, hv, _, henc⟩ := c79_sent _ _ _ _ hsend
      exact .inr ⟨bs, o, _, DirP.search_request _ _ _ hs o ho, hv, henc, rfl⟩

theorem getOne_wrote (env : Api.Env V R) (l : Link Received.Decoded S) (dn : Str) (attrs : Option (List Str)) (kwds : PDict Str (Controls.Kwd V)) :
    Wrote peer l (Api.getOne codec (fun d => d.1.1) peer env l dn attrs kwds).1 (fun op _ => SearchFor env.conn (Api.getArgs dn attrs kwds) op ∧ IsSearch op) := by
  simp only [Api.getOne]
  by_cases hu : env.conn.unbound = true
  · rw [if_pos hu]; exact .inl rfl
  · rw [if_neg hu]
    have h := search_wrote (peer := peer) env l (Api.getArgs dn attrs kwds)
    revert h
    rcases Api.searchAll codec (fun d => d.1.1) peer env l (Api.getArgs dn attrs kwds) with ⟨l', e | items⟩ <;> exact id

theorem modDn_wrote (env : Api.Env V R) (l : Link Received.Decoded S) (dn rdn : Str) (clean : Bool) (parent : Option Str) :
    Wrote peer l (Api.sendModDn codec (fun d => d.1.1) peer env l
      (ldapModDn env.conn.unbound env.ctrlsOk (fun rq => Api.unitOf (Api.exchange codec (fun d => d.1.1) peer env l (.modDn rq)).2) dn rdn clean parent) : Link Received.Decoded S × Except Err (Api.Ret R)).1
      (fun op ctrls => op = .modDNRequest (utf8Enc dn) (utf8Enc rdn) clean (parent.map utf8Enc) ∧ ctrls = env.wire) := by
  simp only [Api.sendModDn, ldapModDn]
  by_cases hu : env.conn.unbound = true
  · simp only [if_pos hu]; exact .inl rfl
  · simp only [if_neg hu]
    cases hc : env.ctrlsOk with
    | error e => exact .inl rfl
    | ok _ => exact wrote_imp (exchange_wrote env l (.modDn ⟨dn, rdn, clean, parent⟩)) (fun o c h => ⟨(Option.some.inj h.1).symm, h.2⟩)

theorem call_wrote (env : Api.Env V R) (l : Link Received.Decoded S) (c : Api.Call V) :
    Wrote peer l (Api.call codec (fun d => d.1.1) peer env l c).1 (fun op ctrls => Asks env c op ∧ (ctrls = env.wire ∨ IsSearch op)) := by
  cases c with
  | add dn attrs =>
    simp only [Api.call, ldapAdd]
    by_cases hu : env.conn.unbound = true
    · simp only [if_pos hu]; exact .inl rfl
    · simp only [if_neg hu]
      cases hc : env.ctrlsOk with
      | error e => exact .inl rfl
      | ok _ =>
        simp only []
        cases hv : runValidation env.addValidators (dn, CIDict.update env.lower CIDict.empty attrs) with
        | error e => exact .inl rfl
        | ok _ =>
          simp only []
          cases (Api.unitOf (Api.exchange codec (fun d => d.1.1) peer env l (.add dn attrs)).2) <;>
            exact wrote_imp (exchange_wrote env l (.add dn attrs)) (fun o c h => ⟨(Option.some.inj h.1).symm, .inl h.2⟩)
  | delete dn =>
    simp only [Api.call]
    by_cases hu : env.conn.unbound = true
    · simp only [if_pos hu]; exact .inl rfl
    · simp only [if_neg hu]
      cases hc : env.ctrlsOk with
      | error e => exact .inl rfl
      | ok _ => exact wrote_imp (exchange_wrote env l (.delete dn)) (fun o c h => ⟨(Option.some.inj h.1).symm, .inl h.2⟩)
  | modDn dn rdn clean parent =>
    exact wrote_imp (modDn_wrote env l dn rdn clean parent) (fun o c h => ⟨h.1, .inl h.2⟩)
  | move dn newDn clean =>
    simp only [Api.call, ldapMove]
    cases hsp : splitUnescaped false newDn with
    | none => exact .inl rfl
    | some q =>
      obtain ⟨rdn, parent⟩ := q
      obtain ⟨s1, s2⟩ := DirP.split_spec _ _ _ _ hsp
      refine wrote_imp (modDn_wrote env l dn rdn clean (some parent)) (fun o c h => ⟨⟨rdn, parent, s1, fun a b hab => ?_, h.1⟩, .inl h.2⟩)
      rcases s2 a b hab with ⟨_, h⟩ | h
      · cases h
      · exact h
  | modify dn mods current =>
    simp only [Api.call, ldapModify]
    by_cases hm : mods.length > 0
    · simp only [if_pos hm]
      by_cases hu : env.conn.unbound = true
      · simp only [if_pos hu]; exact .inl rfl
      · simp only [if_neg hu]
        cases hv : runValidation env.modValidators (dn, mods, current) with
        | error e => exact .inl rfl
        | ok _ =>
          simp only []
          cases hb : (buildChanges env.opts mods).2 with
          | error e => exact .inl rfl
          | ok cs =>
            have hcs := DirP.changes_sent env.opts mods cs hb
            simp only []
            by_cases hl : cs.length > 0
            · simp only [if_pos hl]
              cases hc : env.ctrlsOk with
              | error e => exact .inl rfl
              | ok _ =>
                refine wrote_imp (exchange_wrote env l (.modify ⟨dn, cs⟩)) (fun o c h => ⟨⟨?_, ?_⟩, .inl h.2⟩)
                · rw [← hcs]
                  intro h
                  rw [List.map_eq_nil_iff] at h
                  rw [h] at hl
                  simp at hl
                · rw [← hcs, ← Option.some.inj h.1]
                  simp only [Spec.OverWireS.modifyOp, List.map_map]
                  rfl
            · simp only [if_neg hl]; exact .inl rfl
    · simp only [if_neg hm]; exact .inl rfl
  | compare dn attr value =>
    simp only [Api.call]
    by_cases hu : env.conn.unbound = true
    · simp only [if_pos hu]; exact .inl rfl
    · simp only [if_neg hu]
      cases hc : env.ctrlsOk with
      | error e => exact .inl rfl
      | ok _ => exact wrote_imp (exchange_wrote env l (.compare dn attr value)) (fun o c h => ⟨(Option.some.inj h.1).symm, .inl h.2⟩)
  | search a =>
    simp only [Api.call]
    have h := search_wrote (peer := peer) env l a
    revert h
    rcases Api.searchAll codec (fun d => d.1.1) peer env l a with ⟨l', e | items⟩ <;> exact fun h => wrote_imp h (fun o c h => ⟨h.1, .inr h.2⟩)
  | get_ dn attrs kwds =>
    simp only [Api.call]
    have h := getOne_wrote (peer := peer) env l dn attrs kwds
    revert h
    rcases Api.getOne codec (fun d => d.1.1) peer env l dn attrs kwds with ⟨l', e | i⟩ <;> exact fun h => wrote_imp h (fun o c h => ⟨h.1, .inr h.2⟩)
  | exists_ dn =>
    simp only [Api.call]
    have h := getOne_wrote (peer := peer) env l dn (some [str "1.1"]) []
    revert h
    rcases Api.getOne codec (fun d => d.1.1) peer env l dn (some [str "1.1"]) [] with ⟨l', e | i⟩
    · intro h
      have h' : Wrote peer l l' (fun op ctrls => Asks env (Api.Call.exists_ dn) op ∧ (ctrls = env.wire ∨ IsSearch op)) := wrote_imp h (fun o c h => ⟨h.1, .inr h.2⟩)
      cases e <;> exact h'
    · exact fun h => wrote_imp h (fun o c h => ⟨h.1, .inr h.2⟩)

/-- on a closed connection nothing is written -/
theorem call_closed (env : Api.Env V R) (hu : env.conn.unbound = true) (l : Link Received.Decoded S) (c : Api.Call V) : (Api.call codec (fun d => d.1.1) peer env l c).1 = l := by
  cases c with
  | add dn attrs => simp only [Api.call, ldapAdd, if_pos hu]; rfl
  | delete dn => simp only [Api.call, if_pos hu]
  | modDn dn rdn clean parent => simp only [Api.call, Api.sendModDn, ldapModDn, if_pos hu]; rfl
  | move dn newDn clean =>
    simp only [Api.call, ldapMove]
    cases hsp : splitUnescaped false newDn with
    | none => rfl
    | some q => simp only [Api.sendModDn, ldapModDn, if_pos hu]; rfl
  | modify dn mods current =>
    simp only [Api.call, ldapModify]
    by_cases hm : mods.length > 0
    · simp only [if_pos hm, if_pos hu]; rfl
    · simp only [if_neg hm]; rfl
  | compare dn attr value => simp only [Api.call, if_pos hu]
  | search a =>
    have : ldapSearch env.conn a = .error .unbound := by simp only [ldapSearch, if_pos hu]
    simp only [Api.call, Api.searchAll, this]
  | get_ dn attrs kwds => simp only [Api.call, Api.getOne, if_pos hu]
  | exists_ dn => simp only [Api.call, Api.getOne, if_pos hu]

end

section
variable {V R S D P : Type} {dir : Directory D} {log : Logins D} {contents : S → D} {peer : Peer S} (env : Api.Env V R) (lib : Api.SaslLib P)

/-- a request and its answer -/
theorem roundTrip_sent (l : Link Received.Decoded S) (hr : SessionP.Ready l.st) (c : Rfc4511.Call) :
    let x := Api.roundTrip codec (fun d => d.1.1) peer env l c
    (send l.st.next c.op env.wire = none ∧ (∃ e, x.2 = .error e) ∧ SessionP.Ready x.1.st ∧ x.1.peer = l.peer) ∨
    ∃ bs o, Spec.Wire.asks c = some o ∧ (Spec.Wire.message l.st.next o env.wire).Valid ∧ (Spec.Wire.message l.st.next o env.wire).enc Spec.Wire.x690 bs ∧
      x.1.peer = (peer l.peer bs).1 ∧ ∀ o', Answered l.st.next [o'] (peer l.peer bs).2 → SessionP.Ready x.1.st ∧ x.2 = .ok (messageV ⟨l.st.next, o', none⟩) := by
  intro x
  simp only [x, Api.roundTrip]
  cases hsend : send l.st.next c.op env.wire with
  | none => exact .inl ⟨rfl, ⟨_, rfl⟩, OverWireP.ready_skip _ hr, rfl⟩
  | some bs =>
    right
    obtain ⟨o, ho, hv, _, henc⟩ := c79_sent _ _ _ _ hsend
    refine ⟨bs, o, ho, hv, henc, ?_, ?_⟩
    · dsimp only
      rcases Net.recvOne codec l.st.next { l.st.sock with chunks := l.st.sock.chunks ++ (peer l.peer bs).2 } with ⟨_ | _ | _ | _, s⟩ <;> rfl
    rintro o' ⟨bss, hp, hne, hfl⟩
    dsimp only
    generalize peer l.peer bs = p at hne hfl ⊢
    obtain ⟨h0, hch, hab, hq⟩ := hr
    obtain ⟨ds, hds1, hds2, hds3⟩ := OverWireP.answered_decoded _ _ _ hp
    match ds, hds1, hds2, hds3 with
    | [ans], hds1, hds2, hds3 =>
      simp only [List.map_cons, List.map_nil, List.cons.injEq, and_true] at hds1
      have hmid : codec.mid ans = l.st.next := by simpa using hds3 ans (by simp)
      obtain ⟨s', r1, r2, r3, r4⟩ := SessionP.recvOne_last codec l.st.next ans hmid [] { l.st.sock with chunks := l.st.sock.chunks ++ p.2 } (by rw [hch]; exact hne)
        (by
          show (l.st.sock.chunks ++ p.2).flatten = _
          rw [hch, List.nil_append, List.nil_append, hfl, ← hds2]) nofun (hq _ (Nat.le_refl _)) hab
      rw [r1]
      refine ⟨⟨Nat.succ_pos _, r2, r3, fun j hj => ?_⟩, by rw [← hds1]⟩
      rw [r4 j (Nat.le_of_succ_le hj)]
      exact hq j (Nat.le_of_succ_le hj)
    | [], hds1, _, _ => simp at hds1
    | _ :: _ :: _, hds1, _, _ => simp at hds1

theorem roundTrip_step (l : Link Received.Decoded S) (hr : SessionP.Ready l.st) (c : Rfc4511.Call) :
    let x := Api.roundTrip codec (fun d => d.1.1) peer env l c
    ((∃ e, x.2 = .error e) ∧ SessionP.Ready x.1.st ∧ x.1.peer = l.peer) ∨
    ∃ bs o, Spec.Wire.asks c = some o ∧ (Spec.Wire.message l.st.next o env.wire).Valid ∧ (Spec.Wire.message l.st.next o env.wire).enc Spec.Wire.x690 bs ∧
      x.1.peer = (peer l.peer bs).1 ∧ ∀ o', Answered l.st.next [o'] (peer l.peer bs).2 → SessionP.Ready x.1.st ∧ x.2 = .ok (messageV ⟨l.st.next, o', none⟩) :=
  (roundTrip_sent env l hr c).imp And.right id

theorem loop_step (ha : Authenticates log contents peer) (mech : Str) : ∀ (fuel : Nat) (l : Link Received.Decoded S) (_ : SessionP.Ready l.st) (p : P) (r : Option Bytes),
    let x := Api.saslLoop codec (fun d => d.1.1) peer env lib mech fuel l p r
    SessionP.Ready x.1.st ∧ ∃ ok, Dialogue log lib.process (utf8Enc mech) p r (contents l.peer) ok (contents x.1.peer) ∧ (x.2 = .ok () ↔ ok = true) := by
  intro fuel
  induction fuel with
  | zero => exact fun l hr p r => ⟨hr, false, .unsent, by simp [Api.saslLoop]⟩
  | succ n ih =>
    intro l hr p r
    dsimp only
    rw [Api.saslLoop]
    have h := roundTrip_step (peer := peer) env l hr (.saslBind mech (r.map .raw))
    dsimp only at h
    revert h
    rcases Api.roundTrip codec (fun d => d.1.1) peer env l (.saslBind mech (r.map .raw)) with ⟨l', res⟩
    intro h
    dsimp only at h
    rcases h with ⟨⟨e, h1⟩, h2, h3⟩ | ⟨bs, o, h1, h2, h3, h4, h5⟩
    · subst h1
      exact ⟨h2, false, by dsimp only; rw [h3]; exact .unsent, by simp⟩
    · rw [SaslP.sasl_call] at h1
      cases h1
      obtain ⟨q, creds, hans, hcase⟩ := ha.sasl l.peer bs _ _ _ _ h2 h3
      obtain ⟨g1, g2⟩ := h5 _ hans
      subst g2
      obtain ⟨code, matched, diag, refs⟩ := q
      have hb := SaslP.bind_answer code creds none ⟨l.st.next, .bindResponse ⟨code, matched, diag, refs⟩ creds, none⟩ ⟨_, matched, diag, refs, rfl⟩
      simp only [hb]
      rw [← h4] at hcase
      rcases hcase with ⟨k1, k2⟩ | ⟨k1, k2⟩ | ⟨k1, k2, k3⟩
      · dsimp only at k1
        subst k1
        exact ⟨g1, true, .accepted k2, by simp⟩
      · dsimp only at k1
        subst k1
        simp only [if_true]
        cases hp : lib.process p creds with
        | error e => exact ⟨g1, false, .stuck k2 hp, by simp⟩
        | ok rp =>
          obtain ⟨r', p'⟩ := rp
          obtain ⟨i1, ok, i2, i3⟩ := ih l' g1 p' r'
          exact ⟨i1, ok, .next k2 hp i2, i3⟩
      · dsimp only at k1 k2
        simp only [if_neg k1, if_neg k2]
        exact ⟨g1, false, by rw [k3]; exact .refused, by simp⟩

theorem extended_inv (m : Spec.Wire.Message) (r : Spec.Wire.Result) (n v : Option Bytes) (ho : m.op = .extendedResp r n v) (s : Str) (h : Session.extendedValue (messageV m) = .ok s) :
    r.code = 0 ∧ v.getD [] = utf8Enc s := by
  obtain ⟨h1, h2⟩ := SessionP.extended_value m r n v ho
  by_cases hc : r.code = 0
  · refine ⟨hc, ?_⟩
    cases hd : utf8Dec (v.getD []) with
    | some t =>
      have ht := utf8_dec_enc _ _ hd
      rw [h2 t hc ht.symm] at h
      cases h
      exact ht.symm
    | none =>
      exfalso
      have hop : opV m.op = .choice m.op.name (resultV r (opt (n.map oct) (opt (v.map oct) .nil))) := by rw [ho]; rfl
      have hu0 := WireP.unpack_view m (str "intermediateResponse") _ hop
      rw [if_neg (by rw [ho]; show ¬ (str "extendedResp" = str "intermediateResponse"); decide)] at hu0
      have hu := WireP.unpack_view m (str "extendedResp") _ hop
      rw [if_pos (by rw [ho]; rfl)] at hu
      have hf : Received.field extendedRespComps (str "responseValue") (resultV r (opt (n.map oct) (opt (v.map oct) .nil))) = v.map oct := by
        cases r with | mk a b c d => cases n <;> cases v <;> cases d <;> rfl
      have hi : Received.intField extendedRespComps (str "resultCode") (resultV r (opt (n.map oct) (opt (v.map oct) .nil))) = some r.code := rfl
      rw [Session.extendedValue, hu0] at h
      simp only [hu, hi, Session.stringComponent, hf, if_pos hc] at h
      cases v with
      | none => simp [utf8Dec] at hd
      | some b =>
        simp only [Option.getD_some] at hd
        simp only [Option.map_some, Received.textOf, Received.octetsOf, oct, Option.bind_some, hd] at h
        cases h
  · rw [h1 hc] at h
    cases h

end
end LifeP

section
open LifeP
variable {V R S D P : Type} {dir : Directory D} {log : Logins D} {contents : S → D} {peer : Peer S}

/-- **C97 (simple bind).** On a connection that is closed or bound nothing is sent. If `simple_bind` returns, the server has accepted this name and password, and the connection is bound; if it raises the
connection is not bound by it, and the server has refused (or has not been asked). -/
theorem c97_simple_bind (ha : Authenticates log contents peer) (env : Api.Env V R) (lib : Api.SaslLib P) (fuel : Nat) (c : Api.Client Received.Decoded S) (hr : SessionP.Ready c.link.st) (username password : Str) :
    let x := Api.lifeCall codec (fun d => d.1.1) peer env lib fuel c (.simpleBind username password)
    SessionP.Ready x.1.link.st ∧ x.1.closed = c.closed ∧ ((c.closed = true ∨ c.bound = true) → x.1 = c ∧ ∃ e, x.2 = .error e) ∧
    (∀ ret, x.2 = .ok ret → x.1.bound = true ∧ log.simple (contents c.link.peer) (utf8Enc username) (utf8Enc password) (contents x.1.link.peer)) ∧
    (∀ e, x.2 = .error e → x.1.bound = c.bound ∧ (contents x.1.link.peer = contents c.link.peer ∨ contents x.1.link.peer = log.refused (contents c.link.peer))) := by
  obtain ⟨l0, bound, closed, exts, known, dm, fatal⟩ := c
  intro x
  simp only [x, Api.lifeCall]
  dsimp only at hr
  cases closed with
  | true => exact ⟨hr, rfl, fun _ => ⟨rfl, _, rfl⟩, nofun, fun _ _ => ⟨rfl, .inl rfl⟩⟩
  | false =>
    simp only [Bool.false_eq_true, if_false]
    cases bound with
    | true => exact ⟨hr, rfl, fun _ => ⟨rfl, _, rfl⟩, nofun, fun _ _ => ⟨rfl, .inl rfl⟩⟩
    | false =>
      simp only [Bool.false_eq_true, if_false]
      cases hc : env.ctrlsOk with
      | error e => exact ⟨hr, rfl, fun h => by simp at h, nofun, fun _ _ => ⟨rfl, .inl rfl⟩⟩
      | ok _ =>
        dsimp only
        have h := DirP.exchange_cases (peer := peer) env l0 hr (.simpleBind username password)
        dsimp only at h
        revert h
        rcases Api.exchange codec (fun d => d.1.1) peer env l0 (.simpleBind username password) with ⟨l', res⟩
        intro h
        dsimp only at h
        rcases h with ⟨h1, h2, h3⟩ | ⟨bs, o, h1, h2, h3, h4, h5⟩
        · subst h1
          exact ⟨h2, rfl, fun h => by simp at h, nofun, fun _ _ => ⟨rfl, .inl (by dsimp only; rw [h3])⟩⟩
        · cases h1
          obtain ⟨q, creds, hans, hcase⟩ := ha.simple l0.peer bs _ _ _ _ h2 h3
          obtain ⟨g1, g2⟩ := h5 _ hans
          obtain ⟨f1, f2, _⟩ := SessionP.finish_ends env.conn.reg env.own (.simpleBind username password) trivial ⟨l0.st.next, .bindResponse q creds, none⟩ rfl
          rw [← h4] at hcase
          rcases hcase with ⟨k1, k2⟩ | ⟨k1, k2⟩
          · rw [f1 .done ⟨q, rfl, k1, rfl⟩] at g2
            subst g2
            exact ⟨g1, rfl, fun h => by simp at h, fun _ _ => ⟨rfl, k2⟩, nofun⟩
          · rw [f2 ⟨q, rfl, k1⟩] at g2
            subst g2
            exact ⟨g1, rfl, fun h => by simp at h, nofun, fun _ _ => ⟨rfl, .inr k2⟩⟩

/-- **C97 (who am I).** If `who_am_i` returns, it returns what the server says of the client; nothing changes. -/
theorem c97_who_am_i (ha : Authenticates log contents peer) (env : Api.Env V R) (lib : Api.SaslLib P) (fuel : Nat) (c : Api.Client Received.Decoded S) (hr : SessionP.Ready c.link.st) :
    let x := Api.lifeCall codec (fun d => d.1.1) peer env lib fuel c .whoAmI
    SessionP.Ready x.1.link.st ∧ x.1.closed = c.closed ∧ x.1.bound = c.bound ∧ contents x.1.link.peer = contents c.link.peer ∧
    ∀ ret, x.2 = .ok ret → ∃ s, ret = .text s ∧ utf8Enc s = log.identity (contents c.link.peer) := by
  obtain ⟨l0, bound, closed, exts, known, dm, fatal⟩ := c
  intro x
  simp only [x, Api.lifeCall]
  dsimp only at hr
  cases hx : (!exts.contains (str "1.3.6.1.4.1.4203.1.11.3")) with
  | true => exact ⟨hr, rfl, rfl, rfl, nofun⟩
  | false =>
    simp only [Bool.false_eq_true, if_false]
    cases hc : env.ctrlsOk with
    | error e => exact ⟨hr, rfl, rfl, rfl, nofun⟩
    | ok _ =>
      dsimp only
      cases closed with
      | true => exact ⟨OverWireP.ready_skip _ hr, rfl, rfl, rfl, nofun⟩
      | false =>
        simp only [Bool.false_eq_true, if_false]
        have h := DirP.exchange_cases (peer := peer) env l0 hr (.extended (str "1.3.6.1.4.1.4203.1.11.3") none)
        dsimp only at h
        revert h
        rcases Api.exchange codec (fun d => d.1.1) peer env l0 (.extended (str "1.3.6.1.4.1.4203.1.11.3") none) with ⟨l', res⟩
        intro h
        dsimp only at h
        rcases h with ⟨h1, h2, h3⟩ | ⟨bs, o, h1, h2, h3, h4, h5⟩
        · subst h1
          exact ⟨h2, rfl, rfl, by dsimp only; rw [h3], nofun⟩
        · cases h1
          obtain ⟨hsame, q, n, v, hans, hid⟩ := ha.who l0.peer bs _ _ h2 h3
          obtain ⟨g1, g2⟩ := h5 _ hans
          have hinv := extended_inv ⟨l0.st.next, .extendedResp q n v, none⟩ q n v rfl
          rw [← h4] at hsame
          simp only [Session.finish] at g2
          cases he : Session.extendedValue (Laurelin.Wire.messageV ⟨l0.st.next, .extendedResp q n v, none⟩) with
          | error e =>
            rw [he] at g2
            subst g2
            exact ⟨g1, rfl, rfl, hsame, nofun⟩
          | ok s =>
            rw [he] at g2
            subst g2
            obtain ⟨i1, i2⟩ := hinv s he
            refine ⟨g1, rfl, rfl, hsame, fun ret h => ?_⟩
            cases h
            exact ⟨s, rfl, by rw [← hid i1, i2]⟩

/-- the mechanisms a SASL bind can be made with: the one asked for, if the server is known to have it; else those known -/
theorem LifeP.candidates (mechs : List AVal) (mech : Option Str) (cands : List AVal) (h : Api.saslCandidates mechs mech = .ok cands) :
    (∀ v ∈ cands, v ∈ mechs) ∧ ∀ m, mech = some m → cands = [.text m] := by
  cases mech with
  | none => cases h; exact ⟨fun _ h => h, nofun⟩
  | some m =>
    simp only [Api.saslCandidates] at h
    split at h
    · rename_i hm
      cases h
      exact ⟨fun v hv => by rw [List.mem_singleton.1 hv]; simpa using hm, fun _ h => by cases h; rfl⟩
    · cases h

/-- **C97 (SASL bind).** On a connection that is closed or bound nothing is sent. Otherwise the connection is bound afterwards exactly if the server has accepted the mechanism's last message, at the end of an
exchange that is the mechanism's own; the mechanism is chosen among those the server is known to have, and is the one asked for. If `sasl_bind` returns the connection is bound. -/
theorem c97_sasl_bind (hs : Serves dir contents peer) (ha : Authenticates log contents peer) (env : Api.Env V R) (lib : Api.SaslLib P) (fuel : Nat) (c : Api.Client Received.Decoded S) (hr : SessionP.Ready c.link.st)
    (mech : Option Str) :
    let x := Api.lifeCall codec (fun d => d.1.1) peer env lib fuel c (.saslBind mech)
    SessionP.Ready x.1.link.st ∧ x.1.closed = c.closed ∧ ((c.closed = true ∨ c.bound = true) → x.1 = c ∧ ∃ e, x.2 = .error e) ∧
    (∀ ret, x.2 = .ok ret → x.1.bound = true) ∧
    (c.bound = false → (x.1.bound = false ∧ contents x.1.link.peer = contents c.link.peer) ∨
      ∃ cands name p, lib.choose cands = .ok (name, p) ∧ (∀ known, c.mechs = some known → ∀ v ∈ cands, v ∈ known) ∧ (∀ m, mech.or c.mech = some m → cands = [.text m]) ∧
        Dialogue log lib.process (utf8Enc name) p none (contents c.link.peer) x.1.bound (contents x.1.link.peer)) := by
  obtain ⟨l0, bound, closed, exts, known, dm, fatal⟩ := c
  intro x
  simp only [x, Api.lifeCall]
  dsimp only at hr
  cases closed with
  | true => exact ⟨hr, rfl, fun _ => ⟨rfl, _, rfl⟩, nofun, fun h => .inl ⟨h, rfl⟩⟩
  | false =>
    simp only [Bool.false_eq_true, if_false]
    cases bound with
    | true => exact ⟨hr, rfl, fun _ => ⟨rfl, _, rfl⟩, nofun, nofun⟩
    | false =>
      simp only [Bool.false_eq_true, if_false]
      have hno : ∀ {α : Prop}, (False ∨ False) → α := fun h => (h.elim id id).elim
      cases hc : env.ctrlsOk with
      | error e => exact ⟨hr, rfl, fun h => by simp at h, nofun, fun _ => .inl ⟨rfl, rfl⟩⟩
      | ok _ =>
        dsimp only
        have hm : let y := Api.saslMechs codec (fun d => d.1.1) peer env (⟨l0, false, false, exts, known, dm, fatal⟩ : Api.Client Received.Decoded S)
            SessionP.Ready y.1.st ∧ contents y.1.peer = contents l0.peer ∧ ∀ l, y.2 = .ok l → ∀ kn, known = some kn → l = kn := by
          intro y
          simp only [y, Api.saslMechs]
          cases hk : known with
          | some kn => exact ⟨hr, rfl, fun l h k hk' => by cases h; cases hk'; rfl⟩
          | none =>
            have g1 := (DirP.getOne_step (env.closedIf false) hs l0 hr [] (some [str "supportedSASLMechanisms"]) []).1
            have g2 := OpenP.getOne_plain (env.closedIf false) hs l0 hr [] (some [str "supportedSASLMechanisms"])
            simp only [Api.queryMechs]
            revert g1 g2
            rcases Api.getOne codec (fun d => d.1.1) peer (env.closedIf false) l0 [] (some [str "supportedSASLMechanisms"]) [] with ⟨l', e | i | i⟩
            · exact fun g1 g2 => ⟨g2, g1, nofun⟩
            · exact fun g1 g2 => ⟨g2, g1, fun _ _ _ => nofun⟩
            · exact fun g1 g2 => ⟨g2, g1, nofun⟩
        dsimp only at hm
        revert hm
        rcases Api.saslMechs codec (fun d => d.1.1) peer env (⟨l0, false, false, exts, known, dm, fatal⟩ : Api.Client Received.Decoded S) with ⟨l, e | mechs⟩
        · rintro ⟨m1, m2, _⟩
          exact ⟨m1, rfl, fun h => by simp at h, nofun, fun _ => .inl ⟨rfl, m2⟩⟩
        · rintro ⟨m1, m2, m3⟩
          dsimp only at m1 m2
          simp only [Api.saslAuth]
          cases hca : Api.saslCandidates mechs (mech.or dm) with
          | error e => exact ⟨m1, rfl, fun h => by simp at h, nofun, fun _ => .inl ⟨rfl, m2⟩⟩
          | ok cands =>
            obtain ⟨a1, a2⟩ := candidates _ _ _ hca
            dsimp only
            cases hch : lib.choose cands with
            | error e => exact ⟨m1, rfl, fun h => by simp at h, nofun, fun _ => .inl ⟨rfl, m2⟩⟩
            | ok np =>
              obtain ⟨name, p⟩ := np
              dsimp only
              have hl := loop_step env lib ha name fuel l m1 p none
              dsimp only at hl
              rw [m2] at hl
              have hk : ∀ kn, known = some kn → ∀ v ∈ cands, v ∈ kn := fun kn hk v hv => by
                have := m3 mechs rfl kn hk
                subst this
                exact a1 v hv
              revert hl
              rcases Api.saslLoop codec (fun d => d.1.1) peer env lib name fuel l p none with ⟨l', e | u⟩
              · rintro ⟨d1, ok, d2, d3⟩
                have hok : ok = false := by
                  cases ok with
                  | false => rfl
                  | true => have := d3.2 rfl; cases this
                subst hok
                dsimp only at d1 d2
                exact ⟨d1, rfl, fun h => by simp at h, nofun, fun _ => .inr ⟨cands, name, p, hch, hk, a2, by dsimp only; exact d2⟩⟩
              · rintro ⟨d1, ok, d2, d3⟩
                have hok : ok = true := d3.1 rfl
                subst hok
                dsimp only at d1 d2 ⊢
                have g1 := (DirP.getOne_step (env.closedIf false) hs l' d1 [] (some [str "supportedSASLMechanisms"]) []).1
                have g2 := OpenP.getOne_plain (env.closedIf false) hs l' d1 [] (some [str "supportedSASLMechanisms"])
                have hre : let z := Api.recheckMechs codec (fun d => d.1.1) peer (env.closedIf false) l' fatal mechs
                    SessionP.Ready z.1.st ∧ contents z.1.peer = contents l'.peer := by
                  intro z
                  simp only [z, Api.recheckMechs, Api.queryMechs]
                  revert g1 g2
                  rcases Api.getOne codec (fun d => d.1.1) peer (env.closedIf false) l' [] (some [str "supportedSASLMechanisms"]) [] with ⟨l'', e | i | i⟩
                  · exact fun g1 g2 => ⟨g2, g1⟩
                  · intro g1 g2
                    dsimp only
                    split <;> rename_i hq <;> simp only [Prod.mk.injEq] at hq <;> obtain ⟨rfl, _⟩ := hq <;> exact ⟨g2, g1⟩
                  · exact fun g1 g2 => ⟨g2, g1⟩
                dsimp only at hre
                revert hre
                rcases Api.recheckMechs codec (fun d => d.1.1) peer (env.closedIf false) l' fatal mechs with ⟨l'', e | now⟩
                · rintro ⟨z1, z2⟩
                  dsimp only at z1 z2
                  exact ⟨z1, rfl, fun h => by simp at h, nofun, fun _ => .inr ⟨cands, name, p, hch, hk, a2, by dsimp only; rw [z2]; exact d2⟩⟩
                · rintro ⟨z1, z2⟩
                  dsimp only at z1 z2
                  exact ⟨z1, rfl, fun h => by simp at h, fun _ _ => rfl, fun _ => .inr ⟨cands, name, p, hch, hk, a2, by dsimp only; rw [z2]; exact d2⟩⟩

end

namespace LifeP
section
variable {V R S D P : Type} {dir : Directory D} {log : Logins D} {contents : S → D} {peer : Peer S}

theorem search_for (env : Api.Env V R) (b : Bool) (a : SearchArgs V) (op : Spec.Wire.Op) (h : SearchFor (env.closedIf b).conn a op) : SearchFor env.conn a op := by
  obtain ⟨n, f, h1, h2, h3⟩ := h
  refine ⟨n, f, h1, ?_, h3⟩
  cases h2 with
  | given s k1 k2 => exact .given s k1 k2
  | default k1 k2 => exact .default k1 k2

theorem asks_for (env : Api.Env V R) (b : Bool) (c : Api.Call V) (op : Spec.Wire.Op) (h : Asks (env.closedIf b) c op) : Asks env c op := by
  cases c with
  | search a => exact search_for env b _ _ h
  | get_ dn attrs kwds => exact search_for env b _ _ h
  | exists_ dn => exact search_for env b _ _ h
  | add => exact h
  | delete => exact h
  | modDn => exact h
  | move => exact h
  | modify => exact h
  | compare => exact h

/-- what a recording peer has got more: messages for requests such as `Q` says -/
def Logged (l l' : Link Received.Decoded (S × List Bytes)) (Q : Spec.Wire.Op → Prop) : Prop :=
  ∃ msgs : List Bytes, l'.peer.2 = l.peer.2 ++ msgs ∧ ∀ bs ∈ msgs, ∃ mid op ctrls, Q op ∧ (Spec.Wire.message mid op ctrls).Valid ∧ (Spec.Wire.message mid op ctrls).enc Spec.Wire.x690 bs

theorem logged_refl (l : Link Received.Decoded (S × List Bytes)) (Q : Spec.Wire.Op → Prop) : Logged l l Q := ⟨[], by simp, nofun⟩

theorem logged_trans {l l' l'' : Link Received.Decoded (S × List Bytes)} {Q : Spec.Wire.Op → Prop} (h : Logged l l' Q) (h' : Logged l' l'' Q) : Logged l l'' Q := by
  obtain ⟨m, h1, h2⟩ := h
  obtain ⟨m', h1', h2'⟩ := h'
  refine ⟨m ++ m', by rw [h1', h1, List.append_assoc], fun bs hb => ?_⟩
  rcases List.mem_append.1 hb with hb | hb
  · exact h2 bs hb
  · exact h2' bs hb

theorem logged_of {l l' : Link Received.Decoded (S × List Bytes)} {Q : Spec.Wire.Op → Option (List Controls.Wire) → Prop} {Q' : Spec.Wire.Op → Prop}
    (h : Wrote (Laurelin.Spec.ApplyS.recorded peer) l l' Q) (hi : ∀ o c, Q o c → Q' o) : Logged l l' Q' := by
  rcases h with h | ⟨bs, op, ctrls, h1, h2, h3, h4⟩
  · exact ⟨[], by rw [h]; simp, nofun⟩
  · refine ⟨[bs], by rw [h4]; rfl, fun b hb => ?_⟩
    rw [List.mem_singleton.1 hb]
    exact ⟨_, op, ctrls, hi _ _ h1, h2, h3⟩

theorem roundTrip_wrote (env : Api.Env V R) (l : Link Received.Decoded S) (c : Rfc4511.Call) :
    Wrote peer l (Api.roundTrip codec (fun d => d.1.1) peer env l c).1 (fun op ctrls => Spec.Wire.asks c = some op ∧ ctrls = env.wire) := by
  simp only [Api.roundTrip]
  cases hsend : send l.st.next c.op env.wire with
  | none => exact .inl rfl
  | some bs =>
    obtain ⟨o, ho, hv, _, henc⟩ := c79_sent _ _ _ _ hsend
    refine .inr ⟨bs, o, _, ⟨ho, rfl⟩, hv, henc, ?_⟩
    dsimp only
    rcases Net.recvOne codec l.st.next { l.st.sock with chunks := l.st.sock.chunks ++ (peer l.peer bs).2 } with ⟨_ | _ | _ | _, s⟩ <;> rfl

theorem loop_logged (env : Api.Env V R) (lib : Api.SaslLib P) (mech : Str) : ∀ (fuel : Nat) (l : Link Received.Decoded (S × List Bytes)) (p : P) (r : Option Bytes),
    Logged l (Api.saslLoop codec (fun d => d.1.1) (Laurelin.Spec.ApplyS.recorded peer) env lib mech fuel l p r).1 (fun op => ∃ m creds, op = .bindRequest 3 [] (.sasl m creds)) := by
  intro fuel
  induction fuel with
  | zero => exact fun l p r => logged_refl l _
  | succ n ih =>
    intro l p r
    rw [Api.saslLoop]
    have h : Logged l (Api.roundTrip codec (fun d => d.1.1) (Laurelin.Spec.ApplyS.recorded peer) env l (.saslBind mech (r.map .raw))).1 (fun op => ∃ m creds, op = .bindRequest 3 [] (.sasl m creds)) :=
      logged_of (roundTrip_wrote env l (.saslBind mech (r.map .raw))) (fun o c h => by
        have := h.1
        rw [SaslP.sasl_call] at this
        exact ⟨_, _, (Option.some.inj this).symm⟩)
    revert h
    rcases Api.roundTrip codec (fun d => d.1.1) (Laurelin.Spec.ApplyS.recorded peer) env l (.saslBind mech (r.map .raw)) with ⟨l', e | v⟩
    · exact id
    · intro h
      dsimp only
      rcases Sasl.bindAnswer v with _ | ⟨code, creds, cs⟩
      · exact h
      · dsimp only
        by_cases h14 : code = 14
        · rw [if_pos h14]
          cases lib.process p creds with
          | error e => exact h
          | ok rp => exact logged_trans h (ih l' rp.2 rp.1)
        · rw [if_neg h14]
          by_cases h0 : code = 0
          · rw [if_pos h0]; exact h
          · rw [if_neg h0]; exact h

theorem query_logged (env : Api.Env V R) (l : Link Received.Decoded (S × List Bytes)) :
    Logged l (Api.queryMechs codec (fun d => d.1.1) (Laurelin.Spec.ApplyS.recorded peer) env l).1 (fun op => SearchFor env.conn (Api.getArgs [] (some [str "supportedSASLMechanisms"]) []) op) := by
  simp only [Api.queryMechs]
  have h : Logged l (Api.getOne codec (fun d => d.1.1) (Laurelin.Spec.ApplyS.recorded peer) env l [] (some [str "supportedSASLMechanisms"]) []).1
      (fun op => SearchFor env.conn (Api.getArgs [] (some [str "supportedSASLMechanisms"]) []) op) := logged_of (getOne_wrote env l [] (some [str "supportedSASLMechanisms"]) []) (fun _ _ h => h.1)
  revert h
  rcases Api.getOne codec (fun d => d.1.1) (Laurelin.Spec.ApplyS.recorded peer) env l [] (some [str "supportedSASLMechanisms"]) [] with ⟨l', e | i | i⟩ <;> exact id

theorem recheck_logged (env : Api.Env V R) (l : Link Received.Decoded (S × List Bytes)) (fatal : Bool) (mechs : List AVal) :
    Logged l (Api.recheckMechs codec (fun d => d.1.1) (Laurelin.Spec.ApplyS.recorded peer) env l fatal mechs).1 (fun op => SearchFor env.conn (Api.getArgs [] (some [str "supportedSASLMechanisms"]) []) op) := by
  simp only [Api.recheckMechs]
  have h := query_logged (peer := peer) env l
  revert h
  rcases Api.queryMechs codec (fun d => d.1.1) (Laurelin.Spec.ApplyS.recorded peer) env l with ⟨l', e | i⟩ <;> exact id

theorem logged_imp {l l' : Link Received.Decoded (S × List Bytes)} {Q Q' : Spec.Wire.Op → Prop} (h : Logged l l' Q) (hi : ∀ o, Q o → Q' o) : Logged l l' Q' := by
  obtain ⟨m, h1, h2⟩ := h
  exact ⟨m, h1, fun bs hb => by
    obtain ⟨mid, op, ctrls, k1, k2⟩ := h2 bs hb
    exact ⟨mid, op, ctrls, hi _ k1, k2⟩⟩

theorem auth_logged (env : Api.Env V R) (lib : Api.SaslLib P) (fuel : Nat) (c : Api.Client Received.Decoded (S × List Bytes)) (l : Link Received.Decoded (S × List Bytes)) (mechs : List AVal) (mech mech' : Option Str) :
    Logged l (Api.saslAuth codec (fun d => d.1.1) (Laurelin.Spec.ApplyS.recorded peer) env lib fuel c l mechs mech : _ × Except Err (Api.LifeRet R)).1.link (LifeAsks env (.saslBind mech')) := by
  simp only [Api.saslAuth]
  cases Api.saslCandidates mechs mech with
  | error e => exact logged_refl _ _
  | ok cands =>
    dsimp only
    cases lib.choose cands with
    | error e => exact logged_refl _ _
    | ok np =>
      dsimp only
      have h := logged_imp (loop_logged (peer := peer) env lib np.1 fuel l np.2 none) (Q' := LifeAsks env (.saslBind mech')) (fun o h => .inl h)
      revert h
      rcases Api.saslLoop codec (fun d => d.1.1) (Laurelin.Spec.ApplyS.recorded peer) env lib np.1 fuel l np.2 none with ⟨l', e | u⟩
      · exact id
      · intro h
        dsimp only
        have h2 := logged_imp (recheck_logged (peer := peer) (env.closedIf c.closed) l' c.fatal mechs) (Q' := LifeAsks env (.saslBind mech')) (fun o h => .inr (search_for _ _ _ _ h))
        revert h2
        rcases Api.recheckMechs codec (fun d => d.1.1) (Laurelin.Spec.ApplyS.recorded peer) (env.closedIf c.closed) l' c.fatal mechs with ⟨l'', e | now⟩ <;> exact fun h2 => logged_trans h h2

theorem single (env : Api.Env V R) (l l' : Link Received.Decoded (S × List Bytes)) (k : Api.LifeCall V) (Q : Spec.Wire.Op → Option (List Controls.Wire) → Prop)
    (h : Wrote (Laurelin.Spec.ApplyS.recorded peer) l l' Q) (hq : ∀ o c, Q o c → LifeAsks env k o ∧ (k ≠ .unbind → ¬ IsSearch o → c = env.wire)) :
    l'.peer.2 = l.peer.2 ∨ ∃ bs op ctrls, l'.peer.2 = l.peer.2 ++ [bs] ∧ LifeAsks env k op ∧ (k ≠ .unbind → ¬ IsSearch op → ctrls = env.wire) ∧
      (Spec.Wire.message l.st.next op ctrls).Valid ∧ (Spec.Wire.message l.st.next op ctrls).enc Spec.Wire.x690 bs := by
  rcases h with h | ⟨bs, op, ctrls, h1, h2, h3, h4⟩
  · exact .inl (by rw [h])
  · exact .inr ⟨bs, op, ctrls, by rw [h4]; rfl, (hq _ _ h1).1, (hq _ _ h1).2, h2, h3⟩

end
end LifeP

section
open LifeP
variable {V R S D P : Type} {dir : Directory D} {log : Logins D} {contents : S → D} {peer : Peer S}

/-- **C97 (what is written).** Whatever the other side sends: a call writes nothing or one message, which has the next ID and is the request that the call is, with its controls; a name and password are sent in
the bind request of `simple_bind` only. -/
theorem c97_written (peer : Peer S) (env : Api.Env V R) (lib : Api.SaslLib P) (fuel : Nat) (c : Api.Client Received.Decoded (S × List Bytes)) (k : Api.LifeCall V) (hk : ∀ m, k ≠ .saslBind m) :
    let x := Api.lifeCall codec (fun d => d.1.1) (Laurelin.Spec.ApplyS.recorded peer) env lib fuel c k
    x.1.link.peer.2 = c.link.peer.2 ∨ ∃ bs op ctrls, x.1.link.peer.2 = c.link.peer.2 ++ [bs] ∧ LifeAsks env k op ∧ (k ≠ .unbind → ¬ IsSearch op → ctrls = env.wire) ∧
      (Spec.Wire.message c.link.st.next op ctrls).Valid ∧ (Spec.Wire.message c.link.st.next op ctrls).enc Spec.Wire.x690 bs := by
  intro x
  cases k with
  | simpleBind username password =>
    simp only [x, Api.lifeCall]
    split
    · exact .inl rfl
    · split
      · exact .inl rfl
      · cases env.ctrlsOk with
        | error e => exact .inl rfl
        | ok _ =>
          dsimp only
          have h := single env _ _ (.simpleBind username password) _ (exchange_wrote (peer := Laurelin.Spec.ApplyS.recorded peer) env c.link (.simpleBind username password))
            (fun o c h => ⟨(Option.some.inj h.1).symm, fun _ _ => h.2⟩)
          revert h
          rcases Api.exchange codec (fun d => d.1.1) (Laurelin.Spec.ApplyS.recorded peer) env c.link (.simpleBind username password) with ⟨l', _ | _ | _⟩ <;> exact id
  | saslBind m => exact absurd rfl (hk m)
  | whoAmI =>
    simp only [x, Api.lifeCall]
    split
    · exact .inl rfl
    · cases env.ctrlsOk with
      | error e => exact .inl rfl
      | ok _ =>
        dsimp only
        split
        · exact .inl rfl
        · have h := single env _ _ .whoAmI _ (exchange_wrote (peer := Laurelin.Spec.ApplyS.recorded peer) env c.link (.extended (str "1.3.6.1.4.1.4203.1.11.3") none))
            (fun o c h => ⟨(Option.some.inj h.1).symm, fun _ _ => h.2⟩)
          revert h
          rcases Api.exchange codec (fun d => d.1.1) (Laurelin.Spec.ApplyS.recorded peer) env c.link (.extended (str "1.3.6.1.4.1.4203.1.11.3") none) with ⟨l', (_ | _ | _) | _ | _⟩ <;> exact id
  | unbind =>
    simp only [x, Api.lifeCall]
    split
    · exact .inl rfl
    · cases hsend : send c.link.st.next (Rfc4511.Call.unbind).op none with
      | none => exact .inl rfl
      | some bs =>
        obtain ⟨o, ho, hv, _, henc⟩ := c79_sent _ .unbind _ _ hsend
        cases ho
        exact .inr ⟨bs, _, none, rfl, rfl, fun h => absurd rfl h, hv, henc⟩
  | call q =>
    simp only [x, Api.lifeCall]
    have h := single env _ _ (.call q) _ (call_wrote (peer := Laurelin.Spec.ApplyS.recorded peer) (env.closedIf c.closed) c.link q)
      (fun o c h => ⟨asks_for _ _ _ _ h.1, fun _ hn => h.2.elim id (fun h => absurd h hn)⟩)
    revert h
    rcases Api.call codec (fun d => d.1.1) (Laurelin.Spec.ApplyS.recorded peer) (env.closedIf c.closed) c.link q with ⟨l', e | r⟩ <;> exact id

/-- **C97 (what a SASL bind writes).** Bind requests of SASL mechanisms and requests for the server's mechanisms, nothing else. -/
theorem c97_sasl_written (peer : Peer S) (env : Api.Env V R) (lib : Api.SaslLib P) (fuel : Nat) (c : Api.Client Received.Decoded (S × List Bytes)) (mech : Option Str) :
    let x := Api.lifeCall codec (fun d => d.1.1) (Laurelin.Spec.ApplyS.recorded peer) env lib fuel c (.saslBind mech)
    ∃ msgs, x.1.link.peer.2 = c.link.peer.2 ++ msgs ∧ ∀ bs ∈ msgs, ∃ mid op ctrls, LifeAsks env (.saslBind mech) op ∧ (Spec.Wire.message mid op ctrls).Valid ∧
      (Spec.Wire.message mid op ctrls).enc Spec.Wire.x690 bs := by
  intro x
  show Logged c.link x.1.link _
  simp only [x, Api.lifeCall]
  split
  · exact logged_refl _ _
  · split
    · exact logged_refl _ _
    · cases env.ctrlsOk with
      | error e => exact logged_refl _ _
      | ok _ =>
        dsimp only
        have h : Logged c.link (Api.saslMechs codec (fun d => d.1.1) (Laurelin.Spec.ApplyS.recorded peer) env c).1 (LifeAsks env (.saslBind mech)) := by
          simp only [Api.saslMechs]
          cases c.mechs with
          | some l => exact logged_refl _ _
          | none => exact logged_imp (query_logged (peer := peer) (env.closedIf c.closed) c.link) (fun o h => .inr (search_for _ _ _ _ h))
        revert h
        rcases Api.saslMechs codec (fun d => d.1.1) (Laurelin.Spec.ApplyS.recorded peer) env c with ⟨l, e | mechs⟩
        · exact id
        · exact fun h => logged_trans h (auth_logged env lib fuel c l mechs _ _)

/-- **C97 (closed).** Once `unbind` has returned no call writes anything, in any order; binds raise `ConnectionUnbound`. -/
theorem c97_closed (env : Api.Env V R) (lib : Api.SaslLib P) (fuel : Nat) :
    (∀ (c : Api.Client Received.Decoded S) ret, (Api.lifeCall codec (fun d => d.1.1) peer env lib fuel c .unbind).2 = .ok ret → (Api.lifeCall codec (fun d => d.1.1) peer env lib fuel c .unbind).1.closed = true) ∧
    (∀ (c : Api.Client Received.Decoded S) k, c.closed = true → IsBind k → (Api.lifeCall codec (fun d => d.1.1) peer env lib fuel c k).2 = .error .unbound) ∧
    ∀ (hist : List (Api.Env V R × Api.LifeCall V)) (c : Api.Client Received.Decoded S), c.closed = true →
      let x := Api.lifeRun codec (fun d => d.1.1) peer lib fuel c hist
      x.1.closed = true ∧ x.1.link.peer = c.link.peer := by
  refine ⟨?_, ?_, ?_⟩
  · intro c ret
    simp only [Api.lifeCall]
    cases hcl : c.closed with
    | true => exact nofun
    | false =>
      simp only [Bool.false_eq_true, if_false]
      cases send c.link.st.next (Rfc4511.Call.unbind).op none with
      | none => exact nofun
      | some bs => exact fun _ => rfl
  · intro c k hc hk
    cases k with
    | simpleBind u p => simp only [Api.lifeCall, hc, if_true]
    | saslBind m => simp only [Api.lifeCall, hc, if_true]
    | whoAmI => exact hk.elim
    | unbind => exact hk.elim
    | call q => exact hk.elim
  · intro hist
    induction hist with
    | nil => exact fun c hc => ⟨hc, rfl⟩
    | cons h hist ih =>
      intro c hc
      obtain ⟨env, k⟩ := h
      simp only [Api.lifeRun]
      have hstep : (Api.lifeCall codec (fun d => d.1.1) peer env lib fuel c k).1.closed = true ∧ (Api.lifeCall codec (fun d => d.1.1) peer env lib fuel c k).1.link.peer = c.link.peer := by
        cases k with
        | simpleBind u p => simp only [Api.lifeCall, hc, if_true, and_self]
        | saslBind m => simp only [Api.lifeCall, hc, if_true, and_self]
        | whoAmI =>
          simp only [Api.lifeCall]
          split
          · exact ⟨hc, rfl⟩
          · cases env.ctrlsOk with
            | error e => exact ⟨hc, rfl⟩
            | ok _ => simp only [hc, if_true, and_self]
        | unbind => simp only [Api.lifeCall, hc, if_true, and_self]
        | call q =>
          simp only [Api.lifeCall]
          have h := call_closed (peer := peer) (env.closedIf c.closed) hc c.link q
          revert h
          rcases Api.call codec (fun d => d.1.1) peer (env.closedIf c.closed) c.link q with ⟨l', e | r⟩
          · exact fun h => ⟨hc, by dsimp only at h ⊢; rw [h]⟩
          · exact fun h => ⟨hc, by dsimp only at h ⊢; rw [h]⟩
      obtain ⟨i1, i2⟩ := ih _ hstep.1
      exact ⟨i1, by rw [i2, hstep.2]⟩

/-- requests that change the directory, compare or search -/
theorem LifeP.asks_kind (env : Api.Env V R) (c : Api.Call V) (op : Spec.Wire.Op) (h : Asks env c op) :
    (∃ resp, Spec.DirectoryS.respond op = some resp) ∨ (∃ dn attr value, op = .compareRequest dn attr value) ∨ IsSearch op := by
  cases c with
  | add => rw [show op = _ from h]; exact .inl ⟨_, rfl⟩
  | delete => rw [show op = _ from h]; exact .inl ⟨_, rfl⟩
  | modDn => rw [show op = _ from h]; exact .inl ⟨_, rfl⟩
  | move => obtain ⟨_, _, _, _, h⟩ := h; rw [h]; exact .inl ⟨_, rfl⟩
  | modify => rw [h.2]; exact .inl ⟨_, rfl⟩
  | compare => rw [show op = _ from h]; exact .inr (.inl ⟨_, _, _, rfl⟩)
  | search => obtain ⟨_, _, _, _, h⟩ := h; rw [h]; exact .inr (.inr trivial)
  | get_ => obtain ⟨_, _, _, _, h⟩ := h; rw [h]; exact .inr (.inr trivial)
  | exists_ => obtain ⟨_, _, _, _, h⟩ := h; rw [h]; exact .inr (.inr trivial)

theorem LifeP.who_step {W : Type} (who : D → W) (hs : Serves dir contents peer) (ha : Authenticates log contents peer) (hw : ∀ d op d', dir.updated d op d' → who d' = who d) (env : Api.Env V R) (lib : Api.SaslLib P)
    (fuel : Nat) (c : Api.Client Received.Decoded S) (hb : c.bound = true) (k : Api.LifeCall V) :
    let x := Api.lifeCall codec (fun d => d.1.1) peer env lib fuel c k
    x.1.bound = true ∧ (c.closed = true → x.1.closed = true) ∧ (x.1.closed = false → who (contents x.1.link.peer) = who (contents c.link.peer)) := by
  intro x
  cases k with
  | simpleBind u p =>
    have : x.1 = c := by
      simp only [x, Api.lifeCall]
      split
      · rfl
      · first | rfl | rw [if_pos hb]
    rw [this]
    exact ⟨hb, id, fun _ => rfl⟩
  | saslBind m =>
    have : x.1 = c := by
      simp only [x, Api.lifeCall]
      split
      · rfl
      · first | rfl | rw [if_pos hb]
    rw [this]
    exact ⟨hb, id, fun _ => rfl⟩
  | whoAmI =>
    simp only [x, Api.lifeCall]
    split
    · exact ⟨hb, id, fun _ => rfl⟩
    · cases env.ctrlsOk with
      | error e => exact ⟨hb, id, fun _ => rfl⟩
      | ok _ =>
        dsimp only
        split
        · exact ⟨hb, id, fun _ => rfl⟩
        · have h := exchange_wrote (peer := peer) env c.link (.extended (str "1.3.6.1.4.1.4203.1.11.3") none)
          have h' : contents (Api.exchange codec (fun d => d.1.1) peer env c.link (.extended (str "1.3.6.1.4.1.4203.1.11.3") none)).1.peer = contents c.link.peer := by
            rcases h with h | ⟨bs, op, ctrls, h1, h2, h3, h4⟩
            · rw [h]
            · rw [h4]
              cases h1.1
              exact (ha.who _ _ _ _ h2 h3).1
          revert h'
          rcases Api.exchange codec (fun d => d.1.1) peer env c.link (.extended (str "1.3.6.1.4.1.4203.1.11.3") none) with ⟨l', (_ | _ | _) | _ | _⟩ <;>
            exact fun h' => ⟨hb, id, fun _ => by dsimp only at h' ⊢; rw [h']⟩
  | unbind =>
    simp only [x, Api.lifeCall]
    split
    · exact ⟨hb, id, fun _ => rfl⟩
    · cases send c.link.st.next (Rfc4511.Call.unbind).op none with
      | none => exact ⟨hb, id, fun _ => rfl⟩
      | some bs => exact ⟨hb, fun _ => rfl, nofun⟩
  | call q =>
    simp only [x, Api.lifeCall]
    have h := call_wrote (peer := peer) (env.closedIf c.closed) c.link q
    have h' : who (contents (Api.call codec (fun d => d.1.1) peer (env.closedIf c.closed) c.link q).1.peer) = who (contents c.link.peer) := by
      rcases h with h | ⟨bs, op, ctrls, h1, h2, h3, h4⟩
      · rw [h]
      · rw [h4]
        rcases asks_kind _ _ _ h1.1 with ⟨resp, k⟩ | ⟨dn, attr, value, k⟩ | k
        · obtain ⟨r, _, ⟨_, k2⟩ | ⟨_, k2⟩⟩ := hs.update _ _ _ _ _ _ k h2 h3
          · exact hw _ _ _ k2
          · rw [k2]
        · subst k
          rw [(hs.compare _ _ _ _ _ _ _ h2 h3).1]
        · rw [(hs.search _ _ _ _ _ k h2 h3).1]
    revert h'
    rcases Api.call codec (fun d => d.1.1) peer (env.closedIf c.closed) c.link q with ⟨l', e | r⟩ <;> exact fun h' => ⟨hb, id, fun _ => h'⟩

/-- **C97 (identity).** A bound connection stays what it is: whatever is called, in any order and however it ends, as long as the connection is not closed the server has the client for the one it was (`who`: any part
of the server's state that updates of the directory do not change). -/
theorem c97_identity {W : Type} (who : D → W) (hs : Serves dir contents peer) (ha : Authenticates log contents peer) (hw : ∀ d op d', dir.updated d op d' → who d' = who d) (lib : Api.SaslLib P) (fuel : Nat)
    (hist : List (Api.Env V R × Api.LifeCall V)) : ∀ (c : Api.Client Received.Decoded S), c.bound = true →
    let x := Api.lifeRun codec (fun d => d.1.1) peer lib fuel c hist
    x.1.bound = true ∧ (c.closed = true → x.1.closed = true) ∧ (x.1.closed = false → who (contents x.1.link.peer) = who (contents c.link.peer)) := by
  induction hist with
  | nil => exact fun c hb => ⟨hb, id, fun _ => rfl⟩
  | cons h hist ih =>
    intro c hb
    obtain ⟨env, k⟩ := h
    simp only [Api.lifeRun]
    obtain ⟨h1, h2, h3⟩ := who_step who hs ha hw env lib fuel c hb k
    obtain ⟨i1, i2, i3⟩ := ih _ h1
    refine ⟨i1, fun h => i2 (h2 h), fun h => ?_⟩
    rw [i3 h]
    refine h3 ?_
    cases hc : (Api.lifeCall codec (fun d => d.1.1) peer env lib fuel c k).1.closed with
    | false => rfl
    | true => rw [i2 hc] at h; cases h

/-- a call leaves the socket between two requests -/
theorem LifeP.life_ready (hs : Serves dir contents peer) (ha : Authenticates log contents peer) (env : Api.Env V R) (lib : Api.SaslLib P) (fuel : Nat) (c : Api.Client Received.Decoded S) (hr : SessionP.Ready c.link.st)
    (k : Api.LifeCall V) :
    let x := Api.lifeCall codec (fun d => d.1.1) peer env lib fuel c k
    x.2 ≠ .error .tagError → x.2 ≠ .error .typeError → SessionP.Ready x.1.link.st := by
  intro x
  cases k with
  | simpleBind u p => exact fun _ _ => (c97_simple_bind ha env lib fuel c hr u p).1
  | saslBind m => exact fun _ _ => (c97_sasl_bind hs ha env lib fuel c hr m).1
  | whoAmI => exact fun _ _ => (c97_who_am_i ha env lib fuel c hr).1
  | unbind =>
    simp only [x, Api.lifeCall]
    split
    · exact fun _ _ => hr
    · cases send c.link.st.next (Rfc4511.Call.unbind).op none with
      | none => exact fun _ _ => OverWireP.ready_skip _ hr
      | some bs => exact fun _ _ => OverWireP.ready_skip _ hr
  | call q =>
    simp only [x, Api.lifeCall]
    have h := (c90_call hs (env.closedIf c.closed) c.link hr q).2
    revert h
    rcases Api.call codec (fun d => d.1.1) peer (env.closedIf c.closed) c.link q with ⟨l', e | r⟩
    · exact fun h a b => h (fun h => a (by simp only [Except.error.injEq] at h; rw [h])) (fun h => b (by simp only [Except.error.injEq] at h; rw [h]))
    · exact fun h _ _ => h nofun nofun

theorem LifeP.run_ready (hs : Serves dir contents peer) (ha : Authenticates log contents peer) (lib : Api.SaslLib P) (fuel : Nat) (hist : List (Api.Env V R × Api.LifeCall V)) :
    ∀ (c : Api.Client Received.Decoded S), SessionP.Ready c.link.st →
    let x := Api.lifeRun codec (fun d => d.1.1) peer lib fuel c hist
    (∀ res ∈ x.2, res ≠ .error .tagError ∧ res ≠ .error .typeError) → SessionP.Ready x.1.link.st := by
  induction hist with
  | nil => exact fun c hr _ => hr
  | cons h hist ih =>
    intro c hr
    obtain ⟨env, k⟩ := h
    simp only [Api.lifeRun]
    intro hres
    have h0 := hres _ List.mem_cons_self
    exact ih _ (life_ready hs ha env lib fuel c hr k h0.1 h0.2) (fun res h => hres res (List.mem_cons_of_mem _ h))

/-- **C97 (bound as).** `simple_bind` has returned; then any calls, after which `who_am_i` returns a text: this is the identity of the state in which the server has accepted the name and password. (Iterations
that raised because of tags or keywords in between leave messages behind, C90.) -/
theorem c97_bound_as (hs : Serves dir contents peer) (ha : Authenticates log contents peer) (hid : ∀ d op d', dir.updated d op d' → log.identity d' = log.identity d) (env env' : Api.Env V R) (lib : Api.SaslLib P) (fuel : Nat)
    (c : Api.Client Received.Decoded S) (hr : SessionP.Ready c.link.st) (username password : Str) (hist : List (Api.Env V R × Api.LifeCall V)) :
    let a := Api.lifeCall codec (fun d => d.1.1) peer env lib fuel c (.simpleBind username password)
    let b := Api.lifeRun codec (fun d => d.1.1) peer lib fuel a.1 hist
    let w := Api.lifeCall codec (fun d => d.1.1) peer env' lib fuel b.1 .whoAmI
    (∃ ret, a.2 = .ok ret) → (∀ res ∈ b.2, res ≠ .error .tagError ∧ res ≠ .error .typeError) →
    ∀ s, w.2 = .ok (.text s) → ∃ d, log.simple (contents c.link.peer) (utf8Enc username) (utf8Enc password) d ∧ utf8Enc s = log.identity d := by
  intro a b w ⟨ret, hret⟩ hres s hw
  obtain ⟨a1, _, _, a4, _⟩ := c97_simple_bind ha env lib fuel c hr username password
  obtain ⟨a5, a6⟩ := a4 ret hret
  have hrb := LifeP.run_ready hs ha lib fuel hist a.1 a1 hres
  obtain ⟨_, _, hid'⟩ := c97_identity log.identity hs ha hid lib fuel hist a.1 a5
  obtain ⟨_, _, _, _, w5⟩ := c97_who_am_i ha env' lib fuel b.1 hrb
  obtain ⟨s', hs', hs2⟩ := w5 _ hw
  cases hs'
  refine ⟨_, a6, ?_⟩
  rw [hs2]
  refine hid' ?_
  cases hc : b.1.closed with
  | false => first | rfl | exact hc
  | true =>
    exfalso
    revert hw
    simp only [w, Api.lifeCall, hc, if_true]
    split
    · exact nofun
    · cases env'.ctrlsOk with
      | error e => exact nofun
      | ok _ => exact nofun

end

/-! ## There are such servers -/
namespace LifeP
open Laurelin.Wire
open OverWireP (said)

theorem all_none {α : Type} (f : α → Bytes → Prop) (l : List (Bytes → Prop)) : Spec.Wire.all (l ++ [Spec.Wire.opt f none]) = Spec.Wire.all l := by
  induction l with
  | nil =>
    funext bs
    refine propext ⟨fun ⟨a, b, h1, h2, h3⟩ => ?_, fun h => ⟨[], [], ?_, rfl, rfl⟩⟩
    · have h2' : a = [] := h2
      have h3' : b = [] := h3
      subst h2'; subst h3'
      exact h1
    · exact h
  | cons p l ih =>
    funext bs
    show (∃ a b, bs = a ++ b ∧ p a ∧ Spec.Wire.all (l ++ [Spec.Wire.opt f none]) b) = _
    rw [ih]
    rfl

theorem bind_enc (code : Int) (hcode : (zBytes code).length ≤ 5) (mid : Int) (hm : Spec.Wire.Int0Max mid) : ∃ pieces, Answered mid [.bindResponse (said code) none] pieces :=
  OverWireP.answer_one mid _ (fun o ho => by
    rw [List.mem_singleton.1 ho]
    refine OverWireP.small_enc 0x61 (.bindResponse (said code) none) code hcode ?_ trivial mid hm
    show Spec.Wire.tlv 0x61 (Spec.Wire.all ((said code).parts Spec.Wire.x690 ++ [Spec.Wire.opt _ none])) = _
    rw [all_none])

theorem extended_enc (code : Int) (hcode : (zBytes code).length ≤ 5) (mid : Int) (hm : Spec.Wire.Int0Max mid) : ∃ pieces, Answered mid [.extendedResp (said code) none none] pieces :=
  OverWireP.answer_one mid _ (fun o ho => by
    rw [List.mem_singleton.1 ho]
    refine OverWireP.small_enc 0x78 (.extendedResp (said code) none none) code hcode ?_ trivial mid hm
    show Spec.Wire.tlv 0x78 (Spec.Wire.all ((said code).parts Spec.Wire.x690 ++ [Spec.Wire.opt _ none, Spec.Wire.opt _ none])) = _
    rw [show ∀ (l : List (Bytes → Prop)) a b, l ++ [a, b] = (l ++ [a]) ++ [b] from fun l a b => by simp, all_none, all_none])

/-- the server lets in whom it can, and tells the identity if that can be sent -/
theorem auth_step {D : Type} (log : Logins D) : ∀ (d : D) (bs : Bytes), ∃ x : D × List Bytes,
    (∀ mid name password ctrls, Spec.Wire.Message.Valid ⟨mid, .bindRequest 3 name (.simple password), ctrls⟩ → Spec.Wire.Message.enc Spec.Wire.x690 ⟨mid, .bindRequest 3 name (.simple password), ctrls⟩ bs →
      ∃ (r : Spec.Wire.Result) (creds : Option Bytes), Answered mid [.bindResponse r creds] x.2 ∧
        ((r.code = 0 ∧ log.simple d name password x.1) ∨ (r.code ≠ 0 ∧ x.1 = log.refused d ∧ ∀ d', ¬ log.simple d name password d'))) ∧
    (∀ mid mech sent ctrls, Spec.Wire.Message.Valid ⟨mid, .bindRequest 3 [] (.sasl mech sent), ctrls⟩ → Spec.Wire.Message.enc Spec.Wire.x690 ⟨mid, .bindRequest 3 [] (.sasl mech sent), ctrls⟩ bs →
      ∃ (r : Spec.Wire.Result) (creds : Option Bytes), Answered mid [.bindResponse r creds] x.2 ∧
        ((r.code = 0 ∧ log.sasl d mech sent x.1) ∨ (r.code = 14 ∧ log.challenge d mech sent creds x.1 ∧ ∀ d', ¬ log.sasl d mech sent d') ∨
          (r.code ≠ 0 ∧ r.code ≠ 14 ∧ x.1 = log.refused d ∧ ∀ d', ¬ log.sasl d mech sent d'))) ∧
    (∀ mid ctrls, Spec.Wire.Message.Valid ⟨mid, .extendedReq (utf8Enc whoOid) none, ctrls⟩ → Spec.Wire.Message.enc Spec.Wire.x690 ⟨mid, .extendedReq (utf8Enc whoOid) none, ctrls⟩ bs →
      x.1 = d ∧ ∃ (r : Spec.Wire.Result) (n v : Option Bytes), Answered mid [.extendedResp r n v] x.2 ∧ (r.code = 0 → v.getD [] = log.identity d) ∧
        ((∃ pieces, Answered mid [.extendedResp (said 0) none (some (log.identity d))] pieces) → r.code = 0)) := by
  intro d bs
  by_cases hm : ∃ m : Spec.Wire.Message, m.Valid ∧ m.enc Spec.Wire.x690 bs
  · obtain ⟨⟨mid, op, ctrls⟩, hv, he⟩ := hm
    have hsame : ∀ mid' op' ctrls', Spec.Wire.Message.Valid ⟨mid', op', ctrls'⟩ → Spec.Wire.Message.enc Spec.Wire.x690 ⟨mid', op', ctrls'⟩ bs → mid' = mid ∧ op' = op := by
      intro mid' op' ctrls' h3 h4
      have := OverWireP.read_once h3 h4 hv he
      simp only [Spec.Wire.Message.mk.injEq] at this
      exact ⟨this.1, this.2.1⟩
    by_cases h1 : ∃ name password, op = .bindRequest 3 name (.simple password)
    · obtain ⟨name, password, rfl⟩ := h1
      have key : ∃ x : D × List Bytes, ∃ (r : Spec.Wire.Result) (creds : Option Bytes), Answered mid [.bindResponse r creds] x.2 ∧
          ((r.code = 0 ∧ log.simple d name password x.1) ∨ (r.code ≠ 0 ∧ x.1 = log.refused d ∧ ∀ d', ¬ log.simple d name password d')) := by
        by_cases hd : ∃ d', log.simple d name password d'
        · obtain ⟨d', hd⟩ := hd
          obtain ⟨pieces, hp⟩ := bind_enc 0 (by decide) mid hv.1
          exact ⟨(d', pieces), said 0, none, hp, .inl ⟨rfl, hd⟩⟩
        · obtain ⟨pieces, hp⟩ := bind_enc 49 (by decide) mid hv.1
          exact ⟨(log.refused d, pieces), said 49, none, hp, .inr ⟨(by decide), rfl, fun d' h => hd ⟨d', h⟩⟩⟩
      obtain ⟨x, hx⟩ := key
      refine ⟨x, fun mid' name' password' ctrls' h3 h4 => ?_, fun mid' mech sent ctrls' h3 h4 => ?_, fun mid' ctrls' h3 h4 => ?_⟩
      · obtain ⟨rfl, h5⟩ := hsame _ _ _ h3 h4
        cases h5
        exact hx
      · cases (hsame _ _ _ h3 h4).2
      · cases (hsame _ _ _ h3 h4).2
    · by_cases h2 : ∃ mech sent, op = .bindRequest 3 [] (.sasl mech sent)
      · obtain ⟨mech, sent, rfl⟩ := h2
        have key : ∃ x : D × List Bytes, ∃ (r : Spec.Wire.Result) (creds : Option Bytes), Answered mid [.bindResponse r creds] x.2 ∧
            ((r.code = 0 ∧ log.sasl d mech sent x.1) ∨ (r.code = 14 ∧ log.challenge d mech sent creds x.1 ∧ ∀ d', ¬ log.sasl d mech sent d') ∨
              (r.code ≠ 0 ∧ r.code ≠ 14 ∧ x.1 = log.refused d ∧ ∀ d', ¬ log.sasl d mech sent d')) := by
          by_cases hd : ∃ d', log.sasl d mech sent d'
          · obtain ⟨d', hd⟩ := hd
            obtain ⟨pieces, hp⟩ := bind_enc 0 (by decide) mid hv.1
            exact ⟨(d', pieces), said 0, none, hp, .inl ⟨rfl, hd⟩⟩
          · by_cases hc : ∃ creds d' pieces, log.challenge d mech sent creds d' ∧ Answered mid [.bindResponse (said 14) creds] pieces
            · obtain ⟨creds, d', pieces, hc, hp⟩ := hc
              exact ⟨(d', pieces), said 14, creds, hp, .inr (.inl ⟨rfl, hc, fun d' h => hd ⟨d', h⟩⟩)⟩
            · obtain ⟨pieces, hp⟩ := bind_enc 49 (by decide) mid hv.1
              exact ⟨(log.refused d, pieces), said 49, none, hp, .inr (.inr ⟨(by decide), (by decide), rfl, fun d' h => hd ⟨d', h⟩⟩)⟩
        obtain ⟨x, hx⟩ := key
        refine ⟨x, fun mid' name' password' ctrls' h3 h4 => ?_, fun mid' mech' sent' ctrls' h3 h4 => ?_, fun mid' ctrls' h3 h4 => ?_⟩
        · cases (hsame _ _ _ h3 h4).2
        · obtain ⟨rfl, h5⟩ := hsame _ _ _ h3 h4
          cases h5
          exact hx
        · cases (hsame _ _ _ h3 h4).2
      · by_cases h3 : op = .extendedReq (utf8Enc whoOid) none
        · have key : ∃ pieces : List Bytes, ∃ (r : Spec.Wire.Result) (n v : Option Bytes), Answered mid [.extendedResp r n v] pieces ∧ (r.code = 0 → v.getD [] = log.identity d) ∧
              ((∃ pieces, Answered mid [.extendedResp (said 0) none (some (log.identity d))] pieces) → r.code = 0) := by
            by_cases hc : ∃ pieces, Answered mid [.extendedResp (said 0) none (some (log.identity d))] pieces
            · obtain ⟨pieces, hp⟩ := hc
              exact ⟨pieces, said 0, none, some (log.identity d), hp, fun _ => rfl, fun _ => rfl⟩
            · obtain ⟨pieces, hp⟩ := extended_enc 53 (by decide) mid hv.1
              exact ⟨pieces, said 53, none, none, hp, fun h => absurd h (by decide), fun h => absurd h hc⟩
          obtain ⟨pieces, hx⟩ := key
          refine ⟨(d, pieces), fun mid' name' password' ctrls' h4 h5 => ?_, fun mid' mech' sent' ctrls' h4 h5 => ?_, fun mid' ctrls' h4 h5 => ?_⟩
          · have := (hsame _ _ _ h4 h5).2
            rw [h3] at this
            cases this
          · have := (hsame _ _ _ h4 h5).2
            rw [h3] at this
            cases this
          · obtain ⟨rfl, _⟩ := hsame _ _ _ h4 h5
            exact ⟨rfl, hx⟩
        · exact ⟨(d, []), fun _ name password _ h4 h5 => absurd ⟨name, password, (hsame _ _ _ h4 h5).2.symm⟩ h1, fun _ mech sent _ h4 h5 => absurd ⟨mech, sent, (hsame _ _ _ h4 h5).2.symm⟩ h2,
            fun _ _ h4 h5 => absurd (hsame _ _ _ h4 h5).2.symm h3⟩
  · exact ⟨(d, []), fun _ _ _ _ h3 h4 => absurd ⟨_, h3, h4⟩ hm, fun _ _ _ _ h3 h4 => absurd ⟨_, h3, h4⟩ hm, fun _ _ h3 h4 => absurd ⟨_, h3, h4⟩ hm⟩

end LifeP

/-- **C97 (there are such servers).** Whatever the operations and binds mean, there is a server that behaves like this, lets in whom it may, and tells an identity whenever that can be sent. -/
theorem c97_server_exists {D : Type} (dir : Directory D) (log : Logins D) : ∃ peer : Peer D, Serves dir (fun d => d) peer ∧ Authenticates log (fun d => d) peer ∧
    (∀ d bs mid name password ctrls d', Spec.Wire.Message.Valid ⟨mid, .bindRequest 3 name (.simple password), ctrls⟩ → Spec.Wire.Message.enc Spec.Wire.x690 ⟨mid, .bindRequest 3 name (.simple password), ctrls⟩ bs →
      log.simple d name password d' → ∃ r creds, r.code = 0 ∧ Answered mid [.bindResponse r creds] (peer d bs).2) ∧
    (∀ d bs mid mech sent ctrls d', Spec.Wire.Message.Valid ⟨mid, .bindRequest 3 [] (.sasl mech sent), ctrls⟩ → Spec.Wire.Message.enc Spec.Wire.x690 ⟨mid, .bindRequest 3 [] (.sasl mech sent), ctrls⟩ bs →
      log.sasl d mech sent d' → ∃ r creds, r.code = 0 ∧ Answered mid [.bindResponse r creds] (peer d bs).2) ∧
    ∀ d bs mid ctrls pieces, Spec.Wire.Message.Valid ⟨mid, .extendedReq (utf8Enc whoOid) none, ctrls⟩ → Spec.Wire.Message.enc Spec.Wire.x690 ⟨mid, .extendedReq (utf8Enc whoOid) none, ctrls⟩ bs →
      Answered mid [.extendedResp (OverWireP.said 0) none (some (log.identity d))] pieces → ∃ r n v, r.code = 0 ∧ Answered mid [.extendedResp r n v] (peer d bs).2 := by
  obtain ⟨base, hb, _⟩ := c90_server_exists dir
  have key := LifeP.auth_step log
  let IsAuth : Spec.Wire.Op → Prop := fun op => match op with
    | .bindRequest .. => True
    | .extendedReq .. => True
    | _ => False
  let Auth : Bytes → Prop := fun bs => ∃ m : Spec.Wire.Message, m.Valid ∧ m.enc Spec.Wire.x690 bs ∧ IsAuth m.op
  let peer : Peer D := fun d bs => @ite _ (Auth bs) (Classical.propDecidable _) (Classical.choose (key d bs)) (base d bs)
  have hin : ∀ d bs (m : Spec.Wire.Message), m.Valid → m.enc Spec.Wire.x690 bs → IsAuth m.op → peer d bs = Classical.choose (key d bs) := fun d bs m h1 h2 h3 => if_pos ⟨m, h1, h2, h3⟩
  have hout : ∀ d bs (m : Spec.Wire.Message), m.Valid → m.enc Spec.Wire.x690 bs → ¬ IsAuth m.op → peer d bs = base d bs := fun d bs m h1 h2 h3 =>
    if_neg (fun ⟨m', k1, k2, k3⟩ => h3 (OverWireP.read_once k1 k2 h1 h2 ▸ k3))
  refine ⟨peer, ⟨?_, ?_, ?_⟩, ⟨?_, ?_, ?_⟩, ?_, ?_, ?_⟩
  · intro d bs mid op resp ctrls h hv he
    rw [hout d bs _ hv he (by cases op <;> first | exact id | (exfalso; revert h; exact nofun))]
    exact hb.update d bs mid op resp ctrls h hv he
  · intro d bs mid dn attr value ctrls hv he
    rw [hout d bs _ hv he id]
    exact hb.compare d bs mid dn attr value ctrls hv he
  · intro d bs mid op ctrls h hv he
    rw [hout d bs _ hv he (by cases op <;> first | exact id | exact h.elim)]
    exact hb.search d bs mid op ctrls h hv he
  · intro d bs mid name password ctrls hv he
    rw [hin d bs _ hv he trivial]
    obtain ⟨r, creds, h1, h2⟩ := (Classical.choose_spec (key d bs)).1 mid name password ctrls hv he
    exact ⟨r, creds, h1, h2.imp id (fun h => ⟨h.1, h.2.1⟩)⟩
  · intro d bs mid mech sent ctrls hv he
    rw [hin d bs _ hv he trivial]
    obtain ⟨r, creds, h1, h2⟩ := (Classical.choose_spec (key d bs)).2.1 mid mech sent ctrls hv he
    exact ⟨r, creds, h1, h2.imp id (Or.imp (fun h => ⟨h.1, h.2.1⟩) (fun h => ⟨h.1, h.2.1, h.2.2.1⟩))⟩
  · intro d bs mid ctrls hv he
    rw [hin d bs _ hv he trivial]
    obtain ⟨h0, r, n, v, h1, h2, _⟩ := (Classical.choose_spec (key d bs)).2.2 mid ctrls hv he
    exact ⟨h0, r, n, v, h1, h2⟩
  · intro d bs mid name password ctrls d' hv he hd
    rw [hin d bs _ hv he trivial]
    obtain ⟨r, creds, h1, h2⟩ := (Classical.choose_spec (key d bs)).1 mid name password ctrls hv he
    exact ⟨r, creds, h2.elim And.left (fun h => absurd hd (h.2.2 d')), h1⟩
  · intro d bs mid mech sent ctrls d' hv he hd
    rw [hin d bs _ hv he trivial]
    obtain ⟨r, creds, h1, h2⟩ := (Classical.choose_spec (key d bs)).2.1 mid mech sent ctrls hv he
    exact ⟨r, creds, h2.elim And.left (fun h => h.elim (fun h => absurd hd (h.2.2 d')) (fun h => absurd hd (h.2.2.2 d'))), h1⟩
  · intro d bs mid ctrls pieces hv he hp
    rw [hin d bs _ hv he trivial]
    obtain ⟨_, r, n, v, h1, _, h2⟩ := (Classical.choose_spec (key d bs)).2.2 mid ctrls hv he
    exact ⟨r, n, v, h2 ⟨pieces, hp⟩, h1⟩


/-! ### Runs on octets -/

namespace LifeP
open OpenP (octets)
open OverWireP (said)

/-- a server that says these things, one after the other, to messages 1, 2, ... -/
def says : Peer (Int × List (List Spec.Wire.Op)) := fun s _ =>
  match s.2 with
  | [] => (s, [])
  | r :: rs => ((s.1 + 1, rs), [(octets s.1 r).take 7, (octets s.1 r).drop 7])

/-- a mechanism that answers the challenge `c` with the octets of a name, and refuses any other -/
def lib1 : Api.SaslLib Unit := ⟨fun l => if l.contains (.text (str "A")) then .ok (str "A", ()) else .error .ldapError, fun _ c => if c = some (utf8Enc (str "c")) then .ok (some (utf8Enc (str "me")), ()) else .error .ldapError⟩

def start (fatal : Bool) (said : List (List Spec.Wire.Op)) : Api.Client Received.Decoded ((Int × List (List Spec.Wire.Op)) × List Bytes) :=
  { link := ⟨Session.St.init, ((1, said), [])⟩, bound := false, closed := false, exts := [whoOid], mechs := some [.text (str "A"), .text (str "B")], mech := none, fatal := fatal }

def life (fatal : Bool) (said : List (List Spec.Wire.Op)) (ks : List (Api.LifeCall Unit)) :=
  Api.lifeRun codec (fun d => d.1.1) (Laurelin.Spec.ApplyS.recorded says) lib1 5 (start fatal said) (ks.map (fun k => (DirP.sampleEnv, k)))

/-- what each call did (`none`: it returned something other than a text), whether the connection is bound and closed, and the number of messages written -/
def seenBy (x : Api.Client Received.Decoded ((Int × List (List Spec.Wire.Op)) × List Bytes) × List (Except Err (Api.LifeRet Unit))) : List (Except Err (Option Str)) × Bool × Bool × Nat :=
  (x.2.map (fun r => match r with
    | .error e => .error e
    | .ok (.text s) => .ok (some s)
    | .ok _ => .ok none), x.1.bound, x.1.closed, x.1.link.peer.2.length)

def told (s : Str) : List Spec.Wire.Op := [.extendedResp (said 0) none (some (utf8Enc s))]
def bindSays (code : Int) (creds : Option Bytes) : List Spec.Wire.Op := [.bindResponse (said code) creds]

-- refused, let in, refused locally, identity, deletion, unbind; afterwards nothing is written
set_option maxRecDepth 100000 in
example : seenBy (life true [bindSays 49 none, bindSays 0 none, told (str "dn:cn=a"), [.delResponse (said 0)]]
    [.simpleBind (str "cn=a") (str "x"), .simpleBind (str "cn=a") (str "y"), .simpleBind (str "cn=b") (str "z"), .whoAmI, .call (.delete (str "o")), .unbind, .unbind, .simpleBind (str "cn=a") (str "y"), .call (.delete (str "o")), .whoAmI]) =
    ([.error .ldapError, .ok none, .error .alreadyBound, .ok (some (str "dn:cn=a")), .ok none, .ok none, .error .unbound, .error .unbound, .error .unbound, .error .osError], true, true, 5) := by
  decide +kernel

-- a SASL bind with one challenge, then the check
set_option maxRecDepth 100000 in
example : seenBy (life true [bindSays 14 (some (utf8Enc (str "c"))), bindSays 0 none, OpenP.foundMechs [str "A", str "B"]] [.saslBind none, .saslBind none]) = ([.ok none, .error .alreadyBound], true, false, 3) := by
  decide +kernel

-- a challenge that the mechanism refuses; a mechanism that the server does not have
set_option maxRecDepth 100000 in
example : seenBy (life true [bindSays 14 (some (utf8Enc (str "d")))] [.saslBind none, .saslBind (some (str "C"))]) = ([.error .ldapError, .error .ldapSupport], false, false, 1) := by
  decide +kernel

end LifeP

open LifeP in
set_option maxRecDepth 100000 in
/-- **C97 (bound, although the call raised).** If the server's mechanisms have changed, `sasl_bind` raises after the server has accepted: the connection is bound, a second attempt is refused, and calls are made with the
identity the bind asked for. -/
theorem c97_bound_though_raised : seenBy (life true [bindSays 0 none, OpenP.foundMechs [str "A"], told (str "u:me")] [.saslBind none, .simpleBind (str "cn=a") (str "x"), .whoAmI]) =
    ([.error .ldapError, .error .alreadyBound, .ok (some (str "u:me"))], true, false, 3) := by
  decide +kernel

namespace LifeP
open OpenP (octets)
open OverWireP (said)

theorem auth_override {S D : Type} {log : Logins D} {contents : S → D} {peer : Peer S} (hs : Authenticates log contents peer) (m : Spec.Wire.Message) (b : Bytes) (hv : m.Valid) (he : m.enc Spec.Wire.x690 b) (out : S → S × List Bytes)
    (h1 : ∀ s name password, m.op = .bindRequest 3 name (.simple password) → ∃ (r : Spec.Wire.Result) (creds : Option Bytes), Answered m.id [.bindResponse r creds] (out s).2 ∧
      ((r.code = 0 ∧ log.simple (contents s) name password (contents (out s).1)) ∨ (r.code ≠ 0 ∧ contents (out s).1 = log.refused (contents s))))
    (h2 : ∀ mech sent, m.op ≠ .bindRequest 3 [] (.sasl mech sent))
    (h3 : ∀ s, m.op = .extendedReq (utf8Enc whoOid) none → contents (out s).1 = contents s ∧
      ∃ (r : Spec.Wire.Result) (n v : Option Bytes), Answered m.id [.extendedResp r n v] (out s).2 ∧ (r.code = 0 → v.getD [] = log.identity (contents s))) :
    Authenticates log contents (fun s bs => if bs = b then out s else peer s bs) := by
  have same : ∀ mid op ctrls, Spec.Wire.Message.Valid ⟨mid, op, ctrls⟩ → Spec.Wire.Message.enc Spec.Wire.x690 ⟨mid, op, ctrls⟩ b → m = ⟨mid, op, ctrls⟩ := fun mid op ctrls h3 h4 => OverWireP.read_once hv he h3 h4
  refine ⟨?_, ?_, ?_⟩
  · intro s bs mid name password ctrls k1 k2
    by_cases hb : bs = b
    · subst hb
      have := same _ _ _ k1 k2
      subst this
      simpa using h1 s _ _ rfl
    · simp only [if_neg hb]
      exact hs.simple s bs mid name password ctrls k1 k2
  · intro s bs mid mech sent ctrls k1 k2
    by_cases hb : bs = b
    · subst hb
      have := same _ _ _ k1 k2
      subst this
      exact absurd rfl (h2 _ _)
    · simp only [if_neg hb]
      exact hs.sasl s bs mid mech sent ctrls k1 k2
  · intro s bs mid ctrls k1 k2
    by_cases hb : bs = b
    · subst hb
      have := same _ _ _ k1 k2
      subst this
      simpa using h3 s rfl
    · simp only [if_neg hb]
      exact hs.who s bs mid ctrls k1 k2

/-- a server with no entries; who has given the right password is known to it -/
def nameDir : Directory Bool := ⟨fun _ _ _ => False, fun _ _ _ _ => False, fun _ _ found => found = []⟩
def nameLogins : Logins Bool :=
  ⟨fun _ name password d' => name = utf8Enc (str "cn=a") ∧ password = utf8Enc (str "x") ∧ d' = true, fun _ _ _ _ => False, fun _ _ _ _ _ => False, fun _ => false, fun d => if d then utf8Enc (str "dn:cn=a") else []⟩

def bindMsg : Spec.Wire.Message := ⟨1, .bindRequest 3 (utf8Enc (str "cn=a")) (.simple (utf8Enc (str "x"))), none⟩
def whoMsg : Spec.Wire.Message := ⟨2, .extendedReq (utf8Enc whoOid) none, none⟩
def bindBytes : Bytes := octets 1 [bindMsg.op]
def whoBytes : Bytes := octets 2 [whoMsg.op]
def bindOut : Bool → Bool × List Bytes := fun _ => (true, [octets 1 (bindSays 0 none)])
def whoOut : Bool → Bool × List Bytes := fun d => (d, [octets 2 (told (if d then str "dn:cn=a" else []))])

noncomputable def namePeer : Peer Bool := fun s bs => if bs = bindBytes then bindOut s else (fun s bs => if bs = whoBytes then whoOut s else Classical.choose (c97_server_exists nameDir nameLogins) s bs) s bs

set_option maxRecDepth 100000 in
theorem name_serves : Serves nameDir (fun d => d) namePeer ∧ Authenticates nameLogins (fun d => d) namePeer := by
  have h0 := Classical.choose_spec (c97_server_exists nameDir nameLogins)
  have hb := WireR.has_enc bindMsg bindBytes (by decide +kernel)
  have hw := WireR.has_enc whoMsg whoBytes (by decide +kernel)
  have hr := WireR.has_enc ⟨1, .bindResponse (said 0) none, none⟩ (octets 1 (bindSays 0 none)) (by decide +kernel)
  have hr1 := WireR.has_enc ⟨2, .extendedResp (said 0) none (some (utf8Enc (str "dn:cn=a"))), none⟩ (octets 2 (told (str "dn:cn=a"))) (by decide +kernel)
  have hr2 := WireR.has_enc ⟨2, .extendedResp (said 0) none (some (utf8Enc [])), none⟩ (octets 2 (told [])) (by decide +kernel)
  refine ⟨DirP.override (DirP.override h0.1 whoMsg whoBytes hw.1 hw.2 whoOut nofun nofun (fun _ h => h.elim)) bindMsg bindBytes hb.1 hb.2 bindOut nofun nofun (fun _ h => h.elim), ?_⟩
  refine auth_override (auth_override h0.2.1 whoMsg whoBytes hw.1 hw.2 whoOut nofun nofun ?_) bindMsg bindBytes hb.1 hb.2 bindOut ?_ nofun nofun
  · intro s _
    refine ⟨rfl, ?_⟩
    cases s with
    | true => exact ⟨said 0, none, _, ⟨_, .cons hr1 .nil, (by decide +kernel), (by decide +kernel)⟩, fun _ => rfl⟩
    | false => exact ⟨said 0, none, _, ⟨_, .cons hr2 .nil, (by decide +kernel), (by decide +kernel)⟩, fun _ => rfl⟩
  · intro s name password h
    cases h
    exact ⟨said 0, none, ⟨_, .cons hr .nil, (by cases s <;> decide +kernel), (by cases s <;> decide +kernel)⟩, .inl ⟨rfl, rfl, rfl, rfl⟩⟩

noncomputable def nameRun := Api.lifeRun codec (fun d => d.1.1) namePeer lib1 5 { link := ⟨Session.St.init, false⟩, bound := false, closed := false, exts := [whoOid], mechs := some [], mech := none, fatal := true }
  [(DirP.sampleEnv, .simpleBind (str "cn=a") (str "x")), (DirP.sampleEnv, .whoAmI)]

-- with this server, which has all the theorems of C97 ask for, the client is let in and told who it is
set_option maxRecDepth 100000 in
example : (nameRun.2.map (fun r => match r with
    | .error e => .error e
    | .ok (.text s) => .ok (some s)
    | .ok _ => .ok none) : List (Except Err (Option Str))) = [.ok none, .ok (some (str "dn:cn=a"))] := by decide +kernel

-- and the updates that the directory may make leave the identity
example : ∀ d op d', nameDir.updated d op d' → nameLogins.identity d' = nameLogins.identity d := fun _ _ _ h => h.elim

end LifeP

end Laurelin.Props
