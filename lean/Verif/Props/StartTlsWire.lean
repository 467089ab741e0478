import Verif.Spec.StartTlsWire
import Verif.Props.Life
import Verif.Props.Willing
/-!
# C106 StartTLS, down to the octets
-/
set_option linter.unusedSectionVars false
namespace Laurelin.Props
open Laurelin Codec Asn1 Rfc4511 Spec OverWire
open Laurelin.Spec.OverWireS (Answered)
open Laurelin.Spec.DirectoryS (Directory Serves SearchFor Found IsSearch)
open Spec.LifeS Spec.StartTlsS Spec.OpenS
open WireP (codec)
namespace StP
open Laurelin.Wire

theorem texts_mem (oid : Str) {l : List Bytes} {l' : List AVal} (hp : Pairwise2 Spec.Wire.Shows l l') : oid ∈ Api.texts l' ↔ utf8Enc oid ∈ l := by
  induction hp with
  | nil => simp [Api.texts]
  | @cons b v l l' hb _ ih =>
    cases v with
    | text s =>
      have hb : b = utf8Enc s := hb
      rw [show Api.texts (AVal.text s :: l') = s :: Api.texts l' from rfl, List.mem_cons, List.mem_cons, ih, hb]
      refine or_congr ⟨fun h => by rw [h], fun h => utf8_injective _ _ h⟩ Iff.rfl
    | raw c =>
      have hb : c = b ∧ ∀ s, b ≠ utf8Enc s := hb
      rw [show Api.texts (AVal.raw c :: l') = Api.texts l' from rfl, List.mem_cons, ih]
      exact ⟨.inr, fun h => h.resolve_left (fun h => hb.2 _ h.symm)⟩

theorem string_cases (comps : Comps) (n : Str) (v : Val) (o : Option Bytes) (h : Received.field comps n v = o.map oct) :
    (∃ s, Session.stringComponent comps n v = .ok s ∧ o.getD [] = utf8Enc s) ∨ (∃ e, Session.stringComponent comps n v = .error e ∧ ∀ s, o.getD [] ≠ utf8Enc s) := by
  simp only [Session.stringComponent, h]
  cases o with
  | none => exact .inl ⟨[], rfl, rfl⟩
  | some b =>
    simp only [Option.map_some, oct, Received.textOf, Received.octetsOf, Option.bind_some, Option.getD_some]
    cases hd : utf8Dec b with
    | some s => exact .inl ⟨s, rfl, (utf8_dec_enc _ _ hd).symm⟩
    | none => exact .inr ⟨_, rfl, fun s hs => by rw [hs, utf8_round_trip] at hd; cases hd⟩

theorem string_kinds (comps : Comps) (n : Str) (v : Val) (o : Option Bytes) (h : Received.field comps n v = o.map oct) :
    (∃ s, Session.stringComponent comps n v = .ok s ∧ o.getD [] = utf8Enc s) ∨ (Session.stringComponent comps n v = .error .ldapUnicode ∧ ∀ s, o.getD [] ≠ utf8Enc s) := by
  simp only [Session.stringComponent, h]
  cases o with
  | none => exact .inl ⟨[], rfl, rfl⟩
  | some b =>
    simp only [Option.map_some, oct, Received.textOf, Received.octetsOf, Option.bind_some, Option.getD_some]
    cases hd : utf8Dec b with
    | some s => exact .inl ⟨s, rfl, (utf8_dec_enc _ _ hd).symm⟩
    | none => exact .inr ⟨rfl, fun s hs => by rw [hs, utf8_round_trip] at hd; cases hd⟩

theorem response_cases (m : Spec.Wire.Message) (r : Spec.Wire.Result) (n v : Option Bytes) (ho : m.op = .extendedResp r n v) :
    (∀ u, Api.responseOk (messageV m) = .ok u → r.code = 0) ∧ (r.code = 0 → (∃ s, n.getD [] = utf8Enc s) → Api.responseOk (messageV m) = .ok ()) := by
  have hop : opV m.op = .choice m.op.name (resultV r (opt (n.map oct) (opt (v.map oct) .nil))) := by rw [ho]; rfl
  have hu0 := WireP.unpack_view m (str "intermediateResponse") _ hop
  rw [if_neg (by rw [ho]; show ¬ (str "extendedResp" = str "intermediateResponse"); decide)] at hu0
  have hu := WireP.unpack_view m (str "extendedResp") _ hop
  rw [if_pos (by rw [ho]; rfl)] at hu
  have hf : Received.field extendedRespComps (str "responseName") (resultV r (opt (n.map oct) (opt (v.map oct) .nil))) = n.map oct := by
    cases r with | mk a b c d => cases n <;> cases v <;> cases d <;> rfl
  have hi : Received.intField extendedRespComps (str "resultCode") (resultV r (opt (n.map oct) (opt (v.map oct) .nil))) = some r.code := rfl
  rw [Api.responseOk, hu0]
  simp only [hu, hi]
  rcases string_cases _ _ _ _ hf with ⟨s, h1, _⟩ | ⟨e, h1, h2⟩
  · rw [h1]
    simp only
    by_cases hc : r.code = 0
    · rw [if_pos hc]; exact ⟨fun _ _ => hc, fun _ _ => rfl⟩
    · rw [if_neg hc]; exact ⟨nofun, fun h => absurd h hc⟩
  · rw [h1]
    exact ⟨nofun, fun _ ⟨s, h⟩ => absurd h (h2 s)⟩

section
variable {V R S D : Type} {dir : Directory D} {contents : S → D} {peer : Peer S}

/-- refreshing what is known of the root DSE -/
theorem refresh_step (hs : Serves dir contents peer) (env : Api.Env V R) (hf : env.conn.dfltFilter = str "(objectClass=*)") (l : Link Received.Decoded S) (hr : SessionP.Ready l.st) :
    let x := Api.refreshRootDse codec (fun d => d.1.1) peer env l
    contents x.1.peer = contents l.peer ∧ SessionP.Ready x.1.st ∧
    ∀ root mechs, x.2 = .ok (root, mechs) → ∃ op e, RootRequest env.conn op ∧ dir.finds (contents l.peer) op [e] ∧ (Distinct env.lower e →
      (∀ name, Pairwise2 Spec.Wire.Shows (sent env.lower e name) (AttrsDict.getAttr env.lower root name)) ∧ Pairwise2 Spec.Wire.Shows (sent env.lower e (str "supportedSASLMechanisms")) mechs) := by
  intro x
  obtain ⟨g1, g2, _, _, _⟩ := DirP.getOne_step env hs l hr [] (some [str "*", str "+"]) []
  have g3 := OpenP.getOne_plain env hs l hr [] (some [str "*", str "+"])
  simp only [x, Api.refreshRootDse]
  revert g1 g2 g3
  rcases Api.getOne codec (fun d => d.1.1) peer env l [] (some [str "*", str "+"]) [] with ⟨l', e | i⟩
  · intro g1 g2 g3
    exact ⟨g1, g3, nofun⟩
  · intro g1 g2 g3
    obtain ⟨op, e, hop, hfinds, hsh⟩ := g2 i rfl
    cases hsh with
    | cons hi _ =>
      obtain ⟨attrs, rfl, hattrs⟩ := hi
      refine ⟨g1, g3, fun root mechs ho => ?_⟩
      simp only [Except.ok.injEq, Prod.mk.injEq] at ho
      obtain ⟨rfl, rfl⟩ := ho
      exact ⟨op, e, OpenP.root_request _ hf _ hop, hfinds, fun hd => ⟨fun name => OpenP.root_shows _ _ _ hattrs hd name, OpenP.root_shows _ _ _ hattrs hd _⟩⟩

end
end StP

section
open StP
variable {V R S D : Type} {dir : Directory D} {lay : Layers D} {contents : S → D} {peer : Peer S} {secure : S → S × Except Err Unit}

/-- **C106 (StartTLS).** `start_tls` ends in one of the ways of `Ends`: TLS counts as started exactly if it was before or the server has accepted it and the handshake has succeeded. The connection can be used
afterwards, and what it knows of the server has not changed if it raises. If it returns: what is known of the server is then from the root DSE that was found after the handshake, and from nothing else. -/
theorem c106_start_tls (hs : Serves dir contents peer) (ha : AnswersStartTls lay contents peer) (hh : Handshakes lay contents secure) (env : Api.Env V R) (hf : env.conn.dfltFilter = str "(objectClass=*)")
    (t : Api.Secured Received.Decoded S) (hr : SessionP.Ready t.client.link.st) :
    let x := Api.startTls codec (fun d => d.1.1) peer env secure t
    SessionP.Ready x.1.client.link.st ∧ x.1.client.closed = t.client.closed ∧ x.1.client.bound = t.client.bound ∧
    Ends lay t.started (contents t.client.link.peer) x.2 x.1.started (contents x.1.client.link.peer) ∧
    (∀ e, x.2 = .error e → x.1.root = t.root ∧ x.1.client.exts = t.client.exts ∧ x.1.client.mechs = t.client.mechs) ∧
    (x.2 = .ok () → t.started = false ∧ tlsOid ∈ t.client.exts ∧ ∃ op e, RootRequest env.conn op ∧ dir.finds (contents x.1.client.link.peer) op [e] ∧ (Distinct env.lower e → Knows env.lower e x.1)) := by
  obtain ⟨⟨l0, bound, closed, exts, known, dm, fatal⟩, started, root0⟩ := t
  intro x
  simp only [x, Api.startTls]
  dsimp only at hr
  cases started with
  | true => exact ⟨hr, rfl, rfl, .kept _, fun _ _ => ⟨rfl, rfl, rfl⟩, nofun⟩
  | false =>
    simp only [Bool.false_eq_true, if_false]
    cases hx : (!exts.contains Api.startTlsOid) with
    | true => exact ⟨hr, rfl, rfl, .kept _, fun _ _ => ⟨rfl, rfl, rfl⟩, nofun⟩
    | false =>
      simp only [Bool.false_eq_true, if_false]
      cases closed with
      | true => exact ⟨OverWireP.ready_skip _ hr, rfl, rfl, .kept _, fun _ _ => ⟨rfl, rfl, rfl⟩, nofun⟩
      | false =>
        simp only [Bool.false_eq_true, if_false]
        have h := LifeP.roundTrip_step (peer := peer) { env with ctrls := .ok none } l0 hr (.extended Api.startTlsOid none)
        dsimp only at h
        revert h
        rcases Api.roundTrip codec (fun d => d.1.1) peer { env with ctrls := .ok none } l0 (.extended Api.startTlsOid none) with ⟨l', res⟩
        intro h
        dsimp only at h
        rcases h with ⟨⟨e, h1⟩, h2, h3⟩ | ⟨bs, o, h1, h2, h3, h4, h5⟩
        · subst h1
          refine ⟨h2, rfl, rfl, ?_, fun _ _ => ⟨rfl, rfl, rfl⟩, nofun⟩
          dsimp only
          rw [h3]
          exact .kept _
        · cases h1
          obtain ⟨q, n, v, hans, hres⟩ := ha l0.peer bs _ _ h2 h3
          obtain ⟨g1, g2⟩ := h5 _ hans
          subst g2
          rw [← h4] at hres
          obtain ⟨hinv, _⟩ := response_cases ⟨l0.st.next, .extendedResp q n v, none⟩ q n v rfl
          dsimp only
          cases he : Api.responseOk (Laurelin.Wire.messageV ⟨l0.st.next, .extendedResp q n v, none⟩) with
          | error e =>
            refine ⟨g1, rfl, rfl, ?_, fun _ _ => ⟨rfl, rfl, rfl⟩, nofun⟩
            rcases hres with ⟨_, hacc⟩ | ⟨_, href⟩
            · exact .unread _ hacc
            · dsimp only
              rw [href]
              exact .refused _
          | ok u =>
            dsimp only
            have hacc : lay.accepted (contents l0.peer) (contents l'.peer) := hres.elim And.right (fun h => absurd (hinv _ he) h.1)
            have hsec := hh l'.peer
            revert hsec
            rcases secure l'.peer with ⟨s, e | u⟩
            · intro hsec
              exact ⟨g1, rfl, rfl, .failed _ hacc hsec, fun _ _ => ⟨rfl, rfl, rfl⟩, nofun⟩
            · intro hsec
              dsimp only at hsec ⊢
              obtain ⟨k1, k2, k3⟩ := refresh_step hs (env.closedIf false) hf ⟨l'.st, s⟩ g1
              revert k1 k2 k3
              rcases Api.refreshRootDse codec (fun d => d.1.1) peer (env.closedIf false) ⟨l'.st, s⟩ with ⟨l'', e | ⟨root, mechs⟩⟩
              · intro k1 k2 k3
                refine ⟨k2, rfl, rfl, ?_, fun _ _ => ⟨rfl, rfl, rfl⟩, nofun⟩
                dsimp only at k1 ⊢
                rw [k1]
                exact .bare _ hacc hsec
              · intro k1 k2 k3
                dsimp only at k1 k2 k3 ⊢
                refine ⟨k2, rfl, rfl, by rw [k1]; exact .done hacc hsec, nofun, fun _ => ⟨trivial, ?_, ?_⟩⟩
                · simpa [Api.startTlsOid, tlsOid] using hx
                · obtain ⟨op, e, e1, e2, e3⟩ := k3 root mechs rfl
                  exact ⟨op, e, e1, by rw [k1]; exact e2, fun hd => ⟨(e3 hd).1, fun oid => texts_mem oid ((e3 hd).1 _), mechs, rfl, (e3 hd).2⟩⟩


/-- **C106 (when there is nothing to ask).** If TLS has been started, or the server does not say it supports StartTLS, `start_tls` raises at once and changes nothing; on a closed connection it raises and writes nothing. -/
theorem c106_not_asked (env : Api.Env V R) (t : Api.Secured Received.Decoded S) :
    (t.started = true → Api.startTls codec (fun d => d.1.1) peer env secure t = (t, .error .ldapError)) ∧
    (t.started = false → tlsOid ∉ t.client.exts → Api.startTls codec (fun d => d.1.1) peer env secure t = (t, .error .ldapSupport)) ∧
    (t.client.closed = true → (∃ e, (Api.startTls codec (fun d => d.1.1) peer env secure t).2 = .error e) ∧ (Api.startTls codec (fun d => d.1.1) peer env secure t).1.client.link.peer = t.client.link.peer ∧
      (Api.startTls codec (fun d => d.1.1) peer env secure t).1.started = t.started) := by
  refine ⟨fun h => by simp only [Api.startTls, h, if_true], fun h hx => ?_, fun hc => ?_⟩
  · have hx' : (!t.client.exts.contains Api.startTlsOid) = true := by simpa [Api.startTlsOid, tlsOid] using hx
    simp only [Api.startTls, h, hx', Bool.false_eq_true, if_false, if_true]
  · simp only [Api.startTls]
    by_cases h : t.started = true
    · rw [if_pos h]; exact ⟨⟨_, rfl⟩, rfl, rfl⟩
    · rw [if_neg h]
      by_cases hx : (!t.client.exts.contains Api.startTlsOid) = true
      · rw [if_pos hx]; exact ⟨⟨_, rfl⟩, rfl, rfl⟩
      · rw [if_neg hx, if_pos hc]; exact ⟨⟨_, rfl⟩, rfl, rfl⟩

theorem StP.roundTrip_next (env : Api.Env V R) (l : Link Received.Decoded S) (c : Rfc4511.Call) : (Api.roundTrip codec (fun d => d.1.1) peer env l c).1.st.next = l.st.next + 1 := by
  simp only [Api.roundTrip]
  cases send l.st.next c.op env.wire with
  | none => rfl
  | some bs =>
    dsimp only
    rcases Net.recvOne codec l.st.next { l.st.sock with chunks := l.st.sock.chunks ++ (peer l.peer bs).2 } with ⟨_ | _ | _ | _, s⟩ <;> rfl

/-- refreshing does what opening does when the base DN is given -/
theorem StP.refresh_open (peer : Peer S) (env : Api.Env V R) (l : Link Received.Decoded S) :
    (Api.openConn codec (fun d => d.1.1) peer env l ⟨[], some [], none⟩).1 = (Api.refreshRootDse codec (fun d => d.1.1) peer env l).1 ∧
    ((∃ e, (Api.openConn codec (fun d => d.1.1) peer env l ⟨[], some [], none⟩).2 = .error e) ↔ ∃ e, (Api.refreshRootDse codec (fun d => d.1.1) peer env l).2 = .error e) := by
  simp only [Api.openConn]
  rcases Api.refreshRootDse codec (fun d => d.1.1) peer env l with ⟨l', e | ⟨root, mechs⟩⟩
  · exact ⟨rfl, ⟨fun _ => ⟨_, rfl⟩, fun _ => ⟨_, rfl⟩⟩⟩
  · simp only [Option.map_some, chooseBase]
    exact ⟨trivial, ⟨fun ⟨_, h⟩ => (by cases h), fun ⟨_, h⟩ => (by cases h)⟩⟩

/-- the handshake with a server that records the messages it is sent: a handshake is none -/
def StP.unrecorded (secure : S → S × Except Err Unit) (s : S × List Bytes) : (S × List Bytes) × Except Err Unit := (((secure s.1).1, s.2), (secure s.1).2)

/-- **C106 (what StartTLS writes).** Whatever the other side sends, `start_tls` writes nothing and raises; or the StartTLS request, with the next ID and without controls, and raises; or this request, and, after a
successful handshake, the request for the root DSE. -/
theorem c106_written (peer : Peer S) (env : Api.Env V R) (hf : env.conn.dfltFilter = str "(objectClass=*)") (t : Api.Secured Received.Decoded (S × List Bytes)) :
    let x := Api.startTls codec (fun d => d.1.1) (Laurelin.Spec.ApplyS.recorded peer) env (StP.unrecorded secure) t
    (x.1.client.link.peer.2 = t.client.link.peer.2 ∧ ∃ e, x.2 = .error e) ∨
    ∃ bs, (Spec.Wire.message t.client.link.st.next (.extendedReq (utf8Enc tlsOid) none) none).Valid ∧ (Spec.Wire.message t.client.link.st.next (.extendedReq (utf8Enc tlsOid) none) none).enc Spec.Wire.x690 bs ∧
      ((x.1.client.link.peer.2 = t.client.link.peer.2 ++ [bs] ∧ ∃ e, x.2 = .error e) ∨
        ∃ bs' op, (secure (peer t.client.link.peer.1 bs).1).2 = .ok () ∧ x.1.started = true ∧ x.1.client.link.peer.2 = t.client.link.peer.2 ++ [bs, bs'] ∧ RootRequest env.conn op ∧
          (Spec.Wire.message (t.client.link.st.next + 1 : Nat) op none).Valid ∧ (Spec.Wire.message (t.client.link.st.next + 1 : Nat) op none).enc Spec.Wire.x690 bs') := by
  intro x
  simp only [x, Api.startTls]
  by_cases h : t.started = true
  · rw [if_pos h]; exact .inl ⟨rfl, _, rfl⟩
  rw [if_neg h]
  by_cases hx : (!t.client.exts.contains Api.startTlsOid) = true
  · rw [if_pos hx]; exact .inl ⟨rfl, _, rfl⟩
  rw [if_neg hx]
  by_cases hc : t.client.closed = true
  · rw [if_pos hc]; exact .inl ⟨rfl, _, rfl⟩
  rw [if_neg hc]
  have hn := StP.roundTrip_next (peer := Laurelin.Spec.ApplyS.recorded peer) { env with ctrls := .ok none } t.client.link (.extended Api.startTlsOid none)
  have hw := LifeP.roundTrip_wrote (peer := Laurelin.Spec.ApplyS.recorded peer) { env with ctrls := .ok none } t.client.link (.extended Api.startTlsOid none)
  have hne : ∀ v, (Api.roundTrip codec (fun d => d.1.1) (Laurelin.Spec.ApplyS.recorded peer) { env with ctrls := .ok none } t.client.link (.extended Api.startTlsOid none)).2 = .ok v →
      ∃ bs, send t.client.link.st.next (Rfc4511.Call.extended Api.startTlsOid none).op none = some bs ∧
        (Api.roundTrip codec (fun d => d.1.1) (Laurelin.Spec.ApplyS.recorded peer) { env with ctrls := .ok none } t.client.link (.extended Api.startTlsOid none)).1.peer = (Laurelin.Spec.ApplyS.recorded peer t.client.link.peer bs).1 := by
    simp only [Api.roundTrip]
    cases hsend : send t.client.link.st.next (Rfc4511.Call.extended Api.startTlsOid none).op (Api.Env.wire { env with ctrls := .ok none }) with
    | none => exact nofun
    | some bs =>
      intro v _
      refine ⟨bs, hsend, ?_⟩
      dsimp only
      rcases Net.recvOne codec t.client.link.st.next { t.client.link.st.sock with chunks := t.client.link.st.sock.chunks ++ (Laurelin.Spec.ApplyS.recorded peer t.client.link.peer bs).2 } with ⟨_ | _ | _ | _, s⟩ <;> rfl
  revert hn hw hne
  rcases Api.roundTrip codec (fun d => d.1.1) (Laurelin.Spec.ApplyS.recorded peer) { env with ctrls := .ok none } t.client.link (.extended Api.startTlsOid none) with ⟨l', e | v⟩
  · intro _ hw _
    dsimp only at hw ⊢
    rcases hw with hw | ⟨bs, op, ctrls, ⟨k1, k2⟩, k3, k4, k5⟩
    · exact .inl ⟨by rw [hw], _, rfl⟩
    · cases k1
      subst k2
      exact .inr ⟨bs, k3, k4, .inl ⟨by rw [k5]; rfl, _, rfl⟩⟩
  · intro hn _ hne
    dsimp only at hn hne ⊢
    obtain ⟨bs, hsend, hp⟩ := hne v rfl
    obtain ⟨o, ho, hv, _, henc⟩ := c79_sent _ _ _ _ hsend
    cases ho
    refine .inr ⟨bs, hv, henc, ?_⟩
    have hp1 : l'.peer.1 = (peer t.client.link.peer.1 bs).1 := by rw [hp]; rfl
    have hp2 : l'.peer.2 = t.client.link.peer.2 ++ [bs] := by rw [hp]; rfl
    cases Api.responseOk v with
    | error e => exact .inl ⟨hp2, _, rfl⟩
    | ok u =>
      dsimp only [StP.unrecorded]
      cases hsec : (secure l'.peer.1).2 with
      | error e => exact .inl ⟨hp2, _, rfl⟩
      | ok u =>
        dsimp only
        have hwr := c96_written peer (env.closedIf false) hf ⟨l'.st, ((secure l'.peer.1).1, l'.peer.2)⟩ ⟨[], some [], none⟩
        dsimp only at hwr
        obtain ⟨r1, r2⟩ := StP.refresh_open (Laurelin.Spec.ApplyS.recorded peer) (env.closedIf false) ⟨l'.st, ((secure l'.peer.1).1, l'.peer.2)⟩
        rw [r1, r2] at hwr
        revert hwr
        rcases Api.refreshRootDse codec (fun d => d.1.1) (Laurelin.Spec.ApplyS.recorded peer) (env.closedIf false) ⟨l'.st, ((secure l'.peer.1).1, l'.peer.2)⟩ with ⟨l'', e | ⟨root, mechs⟩⟩
        · intro hwr
          dsimp only at hwr ⊢
          rcases hwr with ⟨hwr, _⟩ | ⟨bs', op, k1, k2, k3, k4⟩
          · exact .inl ⟨by rw [hwr, hp2], _, rfl⟩
          · rw [hn] at k3 k4
            exact .inr ⟨bs', op, hp1 ▸ hsec, rfl, by rw [k1, hp2]; simp, k2, k3, k4⟩
        · intro hwr
          dsimp only at hwr ⊢
          rcases hwr with ⟨_, _, hwr⟩ | ⟨bs', op, k1, k2, k3, k4⟩
          · cases hwr
          · rw [hn] at k3 k4
            exact .inr ⟨bs', op, hp1 ▸ hsec, rfl, by rw [k1, hp2]; simp, k2, k3, k4⟩

/-- **C106 (when StartTLS succeeds).** If the request can be written, the server accepts it with a readable answer, the handshake succeeds, and the server is then willing and has exactly one root DSE, which can be sent:
`start_tls` returns. -/
theorem c106_starts (hw : Laurelin.Spec.WillingS.Willing dir contents peer) (env : Api.Env V R) (hu : Laurelin.Spec.WillingS.Usable env) (hf : env.conn.dfltFilter = str "(objectClass=*)")
    (t : Api.Secured Received.Decoded S) (hr : SessionP.Ready t.client.link.st) (h0 : t.started = false) (hc : t.client.closed = false) (hx : tlsOid ∈ t.client.exts)
    (hfit : Laurelin.Spec.WillingS.Fits t.client.link.st.next (.extendedReq (utf8Enc tlsOid) none) none)
    (hfit' : Laurelin.Spec.WillingS.Fits (t.client.link.st.next + 1 : Nat) (rootOp env.conn.dfltDeref env.conn.dfltTimeout [str "*", str "+"]) none)
    (hyes : ∀ bs, (Spec.Wire.message t.client.link.st.next (.extendedReq (utf8Enc tlsOid) none) none).enc Spec.Wire.x690 bs →
      (∃ (r : Spec.Wire.Result) (n v : Option Bytes), r.code = 0 ∧ (∃ s, n.getD [] = utf8Enc s) ∧ Answered t.client.link.st.next [.extendedResp r n v] (peer t.client.link.peer bs).2) ∧
      (secure (peer t.client.link.peer bs).1).2 = .ok () ∧ ∃ e, Distinct env.lower e ∧
        Laurelin.Spec.WillingS.Sendable dir (contents (secure (peer t.client.link.peer bs).1).1) (t.client.link.st.next + 1 : Nat) (rootOp env.conn.dfltDeref env.conn.dfltTimeout [str "*", str "+"]) [e] ∧
        ∀ found, dir.finds (contents (secure (peer t.client.link.peer bs).1).1) (rootOp env.conn.dfltDeref env.conn.dfltTimeout [str "*", str "+"]) found → found = [e]) :
    (Api.startTls codec (fun d => d.1.1) peer env secure t).2 = .ok () := by
  have hx' : ¬ (!t.client.exts.contains Api.startTlsOid) = true := by simpa [Api.startTlsOid, tlsOid] using hx
  simp only [Api.startTls, h0, Bool.false_eq_true, if_false, hc, if_neg hx']
  have hn := StP.roundTrip_next (peer := peer) { env with ctrls := .ok none } t.client.link (.extended Api.startTlsOid none)
  have h := LifeP.roundTrip_sent (peer := peer) { env with ctrls := .ok none } t.client.link hr (.extended Api.startTlsOid none)
  dsimp only at h
  revert h hn
  rcases Api.roundTrip codec (fun d => d.1.1) peer { env with ctrls := .ok none } t.client.link (.extended Api.startTlsOid none) with ⟨l', res⟩
  intro hn h
  dsimp only at h hn
  rcases h with ⟨h1, _⟩ | ⟨bs, o, h1, h2, h3, h4, h5⟩
  · exfalso
    obtain ⟨f1, b, f2⟩ := hfit
    obtain ⟨bs, hs, _⟩ := c79_shortest t.client.link.st.next (.extended Api.startTlsOid none) none _ rfl (show ∀ c ∈ Api.startTlsOid, c.toNat < 128 by decide) nofun f1 b f2
    have h1 : send t.client.link.st.next (Rfc4511.Call.extended Api.startTlsOid none).op none = none := h1
    rw [hs] at h1
    cases h1
  · cases h1
    obtain ⟨⟨r, n, v, hz, hname, hans⟩, hsec, e, hd, hsend, hone⟩ := hyes bs h3
    obtain ⟨g1, g2⟩ := h5 _ hans
    subst g2
    have hok := (StP.response_cases ⟨t.client.link.st.next, .extendedResp r n v, none⟩ r n v rfl).2 hz hname
    dsimp only
    rw [hok]
    dsimp only
    rw [← h4] at hsec hsend hone
    revert hsec hsend hone
    rcases secure l'.peer with ⟨s, e' | u⟩
    · intro hsec; cases hsec
    · intro _ hsend hone
      dsimp only at hsend hone ⊢
      rw [← hn] at hfit' hsend
      have hop := (c96_opens hw (env.closedIf false) ⟨rfl, hu.adding, hu.modifying, hu.ctrls⟩ hf ⟨l'.st, s⟩ g1 ⟨[], some [], none⟩ e hd hfit' hsend hone).1.2 ⟨_, .given _ rfl⟩
      obtain ⟨_, hopen⟩ := hop
      have hro := (StP.refresh_open peer (env.closedIf false) ⟨l'.st, s⟩).2
      revert hro
      rcases Api.refreshRootDse codec (fun d => d.1.1) peer (env.closedIf false) ⟨l'.st, s⟩ with ⟨l'', e' | ⟨root, mechs⟩⟩
      · intro hro
        obtain ⟨x, hx⟩ := hro.2 ⟨_, rfl⟩
        rw [hopen] at hx
        cases hx
      · exact fun _ => rfl

/-- **C106, finding.** An intermediate response is taken for an acceptance: if the server answers the request with one, the handshake is begun, whatever the server means by it. -/
theorem c106_intermediate (env : Api.Env V R) (t : Api.Secured Received.Decoded S) (hr : SessionP.Ready t.client.link.st) (h0 : t.started = false) (hc : t.client.closed = false) (hx : tlsOid ∈ t.client.exts)
    (hfit : Laurelin.Spec.WillingS.Fits t.client.link.st.next (.extendedReq (utf8Enc tlsOid) none) none)
    (hans : ∀ bs, (Spec.Wire.message t.client.link.st.next (.extendedReq (utf8Enc tlsOid) none) none).enc Spec.Wire.x690 bs →
      Answered t.client.link.st.next [.intermediateResponse none none] (peer t.client.link.peer bs).2 ∧ (secure (peer t.client.link.peer bs).1).2 = .ok ()) :
    (Api.startTls codec (fun d => d.1.1) peer env secure t).1.started = true := by
  have hx' : ¬ (!t.client.exts.contains Api.startTlsOid) = true := by simpa [Api.startTlsOid, tlsOid] using hx
  simp only [Api.startTls, h0, Bool.false_eq_true, if_false, hc, if_neg hx']
  have h := LifeP.roundTrip_sent (peer := peer) { env with ctrls := .ok none } t.client.link hr (.extended Api.startTlsOid none)
  dsimp only at h
  revert h
  rcases Api.roundTrip codec (fun d => d.1.1) peer { env with ctrls := .ok none } t.client.link (.extended Api.startTlsOid none) with ⟨l', res⟩
  intro h
  dsimp only at h
  rcases h with ⟨h1, _⟩ | ⟨bs, o, h1, h2, h3, h4, h5⟩
  · exfalso
    obtain ⟨f1, b, f2⟩ := hfit
    obtain ⟨bs, hs, _⟩ := c79_shortest t.client.link.st.next (.extended Api.startTlsOid none) none _ rfl (show ∀ c ∈ Api.startTlsOid, c.toNat < 128 by decide) nofun f1 b f2
    have h1 : send t.client.link.st.next (Rfc4511.Call.extended Api.startTlsOid none).op none = none := h1
    rw [hs] at h1
    cases h1
  · cases h1
    obtain ⟨hans, hsec⟩ := hans bs h3
    obtain ⟨_, g2⟩ := h5 _ hans
    subst g2
    dsimp only
    rw [show Api.responseOk (Laurelin.Wire.messageV ⟨t.client.link.st.next, .intermediateResponse none none, none⟩) = .ok () from rfl]
    dsimp only
    rw [← h4] at hsec
    revert hsec
    rcases secure l'.peer with ⟨s, e' | u⟩
    · intro hsec; cases hsec
    · intro _
      dsimp only
      rcases Api.refreshRootDse codec (fun d => d.1.1) peer (env.closedIf false) ⟨l'.st, s⟩ with ⟨l'', e' | ⟨root, mechs⟩⟩ <;> rfl

theorem taken_of (m : Spec.Wire.Message) : Taken m.op (Api.responseOk (Laurelin.Wire.messageV m)) := by
  rw [Api.responseOk]
  by_cases hi : ∃ n v, m.op = .intermediateResponse n v
  · obtain ⟨n, v, ho⟩ := hi
    have hop : Laurelin.Wire.opV m.op = .choice m.op.name (.seq (Laurelin.Wire.opt (n.map Laurelin.Wire.oct) (Laurelin.Wire.opt (v.map Laurelin.Wire.oct) .nil))) := by rw [ho]; rfl
    have hu := WireP.unpack_view m (str "intermediateResponse") _ hop
    rw [if_pos (by rw [ho]; rfl)] at hu
    have hf : Received.field intermediateComps (str "responseName") (.seq (Laurelin.Wire.opt (n.map Laurelin.Wire.oct) (Laurelin.Wire.opt (v.map Laurelin.Wire.oct) .nil))) = n.map Laurelin.Wire.oct := by
      cases n <;> cases v <;> rfl
    simp only [hu]
    rw [ho]
    rcases string_kinds _ _ _ _ hf with ⟨s, h1, h2⟩ | ⟨h1, h2⟩
    · rw [h1]; exact .intermediate h2
    · rw [h1]; exact .intermediateName h2
  · by_cases hx : ∃ r n v, m.op = .extendedResp r n v
    · obtain ⟨r, n, v, ho⟩ := hx
      have hop : Laurelin.Wire.opV m.op = .choice m.op.name (Laurelin.Wire.resultV r (Laurelin.Wire.opt (n.map Laurelin.Wire.oct) (Laurelin.Wire.opt (v.map Laurelin.Wire.oct) .nil))) := by rw [ho]; rfl
      have hu0 := WireP.unpack_view m (str "intermediateResponse") _ hop
      rw [if_neg (by rw [ho]; show ¬ (str "extendedResp" = str "intermediateResponse"); decide)] at hu0
      have hu := WireP.unpack_view m (str "extendedResp") _ hop
      rw [if_pos (by rw [ho]; rfl)] at hu
      have hf : Received.field extendedRespComps (str "responseName") (Laurelin.Wire.resultV r (Laurelin.Wire.opt (n.map Laurelin.Wire.oct) (Laurelin.Wire.opt (v.map Laurelin.Wire.oct) .nil))) = n.map Laurelin.Wire.oct := by
        cases r with | mk a b c d => cases n <;> cases v <;> cases d <;> rfl
      have hi : Received.intField extendedRespComps (str "resultCode") (Laurelin.Wire.resultV r (Laurelin.Wire.opt (n.map Laurelin.Wire.oct) (Laurelin.Wire.opt (v.map Laurelin.Wire.oct) .nil))) = some r.code := rfl
      simp only [hu0, hu, hi]
      rw [ho]
      rcases string_kinds _ _ _ _ hf with ⟨s, h1, h2⟩ | ⟨h1, h2⟩
      · rw [h1]
        dsimp only
        by_cases hc : r.code = 0
        · rw [if_pos hc]; exact .success h2 hc
        · rw [if_neg hc]; exact .refusal h2 hc
      · rw [h1]; exact .name h2
    · obtain ⟨w, hw⟩ := WireP.op_shape m.op
      have hu0 := WireP.unpack_view m (str "intermediateResponse") _ hw
      have hu := WireP.unpack_view m (str "extendedResp") _ hw
      rw [if_neg (by intro h; revert hi h; cases m.op <;> first | (intro hi _; exact hi ⟨_, _, rfl⟩) | (intro _ h; exact absurd h (by simp only [Spec.Wire.Op.name]; decide)))] at hu0
      rw [if_neg (by intro h; revert hx h; cases m.op <;> first | (intro hx _; exact hx ⟨_, _, _, rfl⟩) | (intro _ h; exact absurd h (by simp only [Spec.Wire.Op.name]; decide)))] at hu
      simp only [hu0, hu]
      exact .other (fun r n v h => hx ⟨r, n, v, h⟩) (fun n v h => hi ⟨n, v, h⟩)

/-- **C106 (every answer).** Whatever one message the server answers the request with, it is taken as `Taken` says, and in no other way: the handshake is begun if it is taken for an acceptance; otherwise `start_tls` raises
that error, TLS is not on, and nothing more is done. -/
theorem c106_answer (env : Api.Env V R) (t : Api.Secured Received.Decoded S) (hr : SessionP.Ready t.client.link.st) (h0 : t.started = false) (hc : t.client.closed = false) (hx : tlsOid ∈ t.client.exts)
    (hfit : Laurelin.Spec.WillingS.Fits t.client.link.st.next (.extendedReq (utf8Enc tlsOid) none) none) (o : Spec.Wire.Op)
    (hans : ∀ bs, (Spec.Wire.message t.client.link.st.next (.extendedReq (utf8Enc tlsOid) none) none).enc Spec.Wire.x690 bs → Answered t.client.link.st.next [o] (peer t.client.link.peer bs).2) :
    let x := Api.startTls codec (fun d => d.1.1) peer env secure t
    ∃ bs, (Spec.Wire.message t.client.link.st.next (.extendedReq (utf8Enc tlsOid) none) none).enc Spec.Wire.x690 bs ∧
      ∃ res, Taken o res ∧ match res with
        | .error e => x.2 = .error e ∧ x.1.started = false ∧ x.1.client.link.peer = (peer t.client.link.peer bs).1
        | .ok _ => match secure (peer t.client.link.peer bs).1 with
          | (s, .error e) => x.2 = .error e ∧ x.1.started = false ∧ x.1.client.link.peer = s
          | (_, .ok _) => x.1.started = true := by
  have hx' : ¬ (!t.client.exts.contains Api.startTlsOid) = true := by simpa [Api.startTlsOid, tlsOid] using hx
  simp only [Api.startTls, h0, Bool.false_eq_true, if_false, hc, if_neg hx']
  have h := LifeP.roundTrip_sent (peer := peer) { env with ctrls := .ok none } t.client.link hr (.extended Api.startTlsOid none)
  dsimp only at h
  revert h
  rcases Api.roundTrip codec (fun d => d.1.1) peer { env with ctrls := .ok none } t.client.link (.extended Api.startTlsOid none) with ⟨l', res⟩
  intro h
  dsimp only at h
  rcases h with ⟨h1, _⟩ | ⟨bs, o', h1, h2, h3, h4, h5⟩
  · exfalso
    obtain ⟨f1, b, f2⟩ := hfit
    obtain ⟨bs, hs, _⟩ := c79_shortest t.client.link.st.next (.extended Api.startTlsOid none) none _ rfl (show ∀ c ∈ Api.startTlsOid, c.toNat < 128 by decide) nofun f1 b f2
    have h1 : send t.client.link.st.next (Rfc4511.Call.extended Api.startTlsOid none).op none = none := h1
    rw [hs] at h1
    cases h1
  · cases h1
    obtain ⟨_, g2⟩ := h5 _ (hans bs h3)
    subst g2
    refine ⟨bs, h3, _, taken_of ⟨t.client.link.st.next, o, none⟩, ?_⟩
    dsimp only
    rcases Api.responseOk (Laurelin.Wire.messageV ⟨t.client.link.st.next, o, none⟩) with e | u
    · exact ⟨rfl, rfl, h4⟩
    · dsimp only
      rw [← h4]
      rcases secure l'.peer with ⟨s, e' | u⟩
      · exact ⟨rfl, rfl, rfl⟩
      · dsimp only
        rcases Api.refreshRootDse codec (fun d => d.1.1) peer (env.closedIf false) ⟨l'.st, s⟩ with ⟨l'', e' | ⟨root, mechs⟩⟩ <;> rfl

end

namespace StP
open OverWireP (said)

theorem tls_step {D : Type} (lay : Layers D) : ∀ (d : D) (bs : Bytes), ∃ x : D × List Bytes, ∀ mid ctrls, Spec.Wire.Message.Valid ⟨mid, .extendedReq (utf8Enc tlsOid) none, ctrls⟩ →
    Spec.Wire.Message.enc Spec.Wire.x690 ⟨mid, .extendedReq (utf8Enc tlsOid) none, ctrls⟩ bs → ∃ r : Spec.Wire.Result, Answered mid [.extendedResp r none none] x.2 ∧
      ((r.code = 0 ∧ lay.accepted d x.1) ∨ (r.code ≠ 0 ∧ x.1 = lay.refused d ∧ ∀ d', ¬ lay.accepted d d')) := by
  intro d bs
  by_cases hm : ∃ (mid : Int) (ctrls : Option (List Controls.Wire)), True ∧ ∃ c, Spec.Wire.Message.Valid ⟨mid, .extendedReq (utf8Enc tlsOid) none, c⟩ ∧ Spec.Wire.Message.enc Spec.Wire.x690 ⟨mid, .extendedReq (utf8Enc tlsOid) none, c⟩ bs
  · obtain ⟨mid, _, _, c, hv, he⟩ := hm
    have hsame : ∀ mid' c', Spec.Wire.Message.Valid ⟨mid', .extendedReq (utf8Enc tlsOid) none, c'⟩ → Spec.Wire.Message.enc Spec.Wire.x690 ⟨mid', .extendedReq (utf8Enc tlsOid) none, c'⟩ bs → mid' = mid := by
      intro mid' c' h3 h4
      have := OverWireP.read_once h3 h4 hv he
      simp only [Spec.Wire.Message.mk.injEq] at this
      exact this.1
    by_cases hd : ∃ d', lay.accepted d d'
    · obtain ⟨d', hd⟩ := hd
      obtain ⟨pieces, hp⟩ := LifeP.extended_enc 0 (by decide) mid hv.1
      exact ⟨(d', pieces), fun mid' c' h3 h4 => by rw [hsame mid' c' h3 h4]; exact ⟨said 0, hp, .inl ⟨rfl, hd⟩⟩⟩
    · obtain ⟨pieces, hp⟩ := LifeP.extended_enc 52 (by decide) mid hv.1
      exact ⟨(lay.refused d, pieces), fun mid' c' h3 h4 => by rw [hsame mid' c' h3 h4]; exact ⟨said 52, hp, .inr ⟨(by decide), rfl, fun d' h => hd ⟨d', h⟩⟩⟩⟩
  · exact ⟨(d, []), fun mid c h3 h4 => absurd ⟨mid, none, trivial, c, h3, h4⟩ hm⟩

end StP

/-- **C106 (there are such servers).** Whatever the operations and StartTLS mean, there is a willing server that accepts StartTLS whenever that is possible; and handshakes for it. -/
theorem c106_server_exists {D : Type} (dir : Directory D) (lay : Layers D) : ∃ peer : Peer D, Laurelin.Spec.WillingS.Willing dir (fun d => d) peer ∧ AnswersStartTls lay (fun d => d) peer ∧
    (∀ d bs mid ctrls d', Spec.Wire.Message.Valid ⟨mid, .extendedReq (utf8Enc tlsOid) none, ctrls⟩ → Spec.Wire.Message.enc Spec.Wire.x690 ⟨mid, .extendedReq (utf8Enc tlsOid) none, ctrls⟩ bs →
      lay.accepted d d' → ∃ r, r.code = 0 ∧ Answered mid [.extendedResp r none none] (peer d bs).2 ∧ lay.accepted d (peer d bs).1) ∧
    ((∀ d, (∃ d', lay.secured d d') ∨ ∃ d', lay.failed d d') → ∃ secure : D → D × Except Err Unit, Handshakes lay (fun d => d) secure ∧ ∀ d d', lay.secured d d' → (secure d).2 = .ok ()) := by
  obtain ⟨base, hb⟩ := c93_server_exists dir
  have key := StP.tls_step lay
  let Is : Bytes → Prop := fun bs => ∃ mid ctrls, Spec.Wire.Message.Valid ⟨mid, .extendedReq (utf8Enc tlsOid) none, ctrls⟩ ∧ Spec.Wire.Message.enc Spec.Wire.x690 ⟨mid, .extendedReq (utf8Enc tlsOid) none, ctrls⟩ bs
  let peer : Peer D := fun d bs => @ite _ (Is bs) (Classical.propDecidable _) (Classical.choose (key d bs)) (base d bs)
  have hin : ∀ d bs mid ctrls, Spec.Wire.Message.Valid ⟨mid, .extendedReq (utf8Enc tlsOid) none, ctrls⟩ → Spec.Wire.Message.enc Spec.Wire.x690 ⟨mid, .extendedReq (utf8Enc tlsOid) none, ctrls⟩ bs →
      peer d bs = Classical.choose (key d bs) := fun d bs mid ctrls h1 h2 => if_pos ⟨mid, ctrls, h1, h2⟩
  have hout : ∀ d bs (m : Spec.Wire.Message), m.Valid → m.enc Spec.Wire.x690 bs → m.op ≠ .extendedReq (utf8Enc tlsOid) none → peer d bs = base d bs := fun d bs m h1 h2 h3 =>
    if_neg (fun ⟨mid, ctrls, k1, k2⟩ => h3 (OverWireP.read_once k1 k2 h1 h2 ▸ rfl))
  refine ⟨peer, ⟨?_, ?_, ?_⟩, ?_, ?_, ?_⟩
  · intro d bs mid op resp ctrls h hv he
    rw [hout d bs _ hv he (fun h' => by have h' : op = _ := h'; rw [h'] at h; cases h)]
    exact hb.update d bs mid op resp ctrls h hv he
  · intro d bs mid dn attr value ctrls hv he
    rw [hout d bs _ hv he nofun]
    exact hb.compare d bs mid dn attr value ctrls hv he
  · intro d bs mid op ctrls h hv he
    rw [hout d bs _ hv he (fun h' => by have h' : op = _ := h'; rw [h'] at h; exact h)]
    exact hb.search d bs mid op ctrls h hv he
  · intro d bs mid ctrls hv he
    rw [hin d bs _ _ hv he]
    obtain ⟨r, h1, h2⟩ := Classical.choose_spec (key d bs) mid ctrls hv he
    exact ⟨r, none, none, h1, h2.imp id (fun h => ⟨h.1, h.2.1⟩)⟩
  · intro d bs mid ctrls d' hv he hd
    rw [hin d bs _ _ hv he]
    obtain ⟨r, h1, h2⟩ := Classical.choose_spec (key d bs) mid ctrls hv he
    rcases h2 with ⟨h2, h3⟩ | ⟨_, _, h3⟩
    · exact ⟨r, h2, h1, h3⟩
    · exact absurd hd (h3 d')
  · intro htot
    have key2 : ∀ d, ∃ x : D × Except Err Unit, (match x.2 with | .ok _ => lay.secured d x.1 | .error _ => lay.failed d x.1) ∧ ∀ d', lay.secured d d' → x.2 = .ok () := by
      intro d
      by_cases h : ∃ d', lay.secured d d'
      · obtain ⟨d', h⟩ := h
        exact ⟨(d', .ok ()), h, fun _ _ => rfl⟩
      · obtain ⟨d', h'⟩ := (htot d).resolve_left h
        exact ⟨(d', .error .osError), h', fun d'' h'' => absurd ⟨d'', h''⟩ h⟩
    exact ⟨fun d => Classical.choose (key2 d), fun d => (Classical.choose_spec (key2 d)).1, fun d d' h => (Classical.choose_spec (key2 d)).2 d' h⟩

/-! ### Runs on octets -/

namespace StP
open OpenP (octets)
open OverWireP (said)

/-- what the server says, one after the other, and what comes of the handshake -/
abbrev World : Type := (Int × List (List Spec.Wire.Op)) × Except Err Unit

def says : Peer World := fun s bs => ((LifeP.says s.1 bs |>.1, s.2), (LifeP.says s.1 bs).2)
def shakes (s : World) : World × Except Err Unit := (s, s.2)

def rootNow : Found := ([], [(str "supportedExtension", [utf8Enc LifeS.whoOid]), (str "supportedSASLMechanisms", [utf8Enc (str "EXTERNAL")])])

def start (exts : List Str) (said : List (List Spec.Wire.Op)) (hand : Except Err Unit) : Api.Secured Received.Decoded (World × List Bytes) :=
  ⟨{ link := ⟨Session.St.init, (((1, said), hand), [])⟩, bound := false, closed := false, exts := exts, mechs := some [.text (str "PLAIN")], mech := none, fatal := true }, false, CIDict.empty⟩

/-- two calls: how they end, whether TLS is started, the extensions and mechanisms known, and the number of messages written -/
def twice (exts : List Str) (said : List (List Spec.Wire.Op)) (hand : Except Err Unit) : List (Except Err Unit) × Bool × List Str × Option (List AVal) × Nat :=
  let x := Api.startTls codec (fun d => d.1.1) (Laurelin.Spec.ApplyS.recorded says) DirP.sampleEnv (unrecorded shakes) (start exts said hand)
  let y := Api.startTls codec (fun d => d.1.1) (Laurelin.Spec.ApplyS.recorded says) DirP.sampleEnv (unrecorded shakes) x.1
  ([x.2, y.2], y.1.started, y.1.client.exts, y.1.client.mechs, y.1.client.link.peer.2.length)

def yes : List Spec.Wire.Op := [.extendedResp (said 0) none none]
def no : List Spec.Wire.Op := [.extendedResp (said 52) (some (utf8Enc tlsOid)) none]
def rootSays : List Spec.Wire.Op := [Spec.DirectoryS.entryOp rootNow, .searchResDone (said 0)]

set_option maxRecDepth 100000 in
example : twice [tlsOid] [yes, rootSays] (.ok ()) = ([.ok (), .error .ldapError], true, [LifeS.whoOid], some [.text (str "EXTERNAL")], 2) := by decide +kernel
-- refused, then accepted
set_option maxRecDepth 100000 in
example : twice [tlsOid] [no, yes, rootSays] (.ok ()) = ([.error .ldapError, .ok ()], true, [LifeS.whoOid], some [.text (str "EXTERNAL")], 3) := by decide +kernel
-- the handshake fails: the second call asks again
set_option maxRecDepth 100000 in
example : twice [tlsOid] [yes, yes] (.error .ldapError) = ([.error .ldapError, .error .ldapError], false, [tlsOid], some [.text (str "PLAIN")], 2) := by decide +kernel
-- the root DSE cannot be read afterwards: TLS is on, what is known is old
set_option maxRecDepth 100000 in
example : twice [tlsOid] [yes, [.searchResDone (said 53)]] (.ok ()) = ([.error .ldapError, .error .ldapError], true, [tlsOid], some [.text (str "PLAIN")], 2) := by decide +kernel
-- not supported
set_option maxRecDepth 100000 in
example : twice [LifeS.whoOid] [yes] (.ok ()) = ([.error .ldapSupport, .error .ldapSupport], false, [LifeS.whoOid], some [.text (str "PLAIN")], 0) := by decide +kernel
-- an intermediate response, or something else
set_option maxRecDepth 100000 in
example : twice [tlsOid] [[.intermediateResponse none none], rootSays] (.ok ()) = ([.ok (), .error .ldapError], true, [LifeS.whoOid], some [.text (str "EXTERNAL")], 2) := by decide +kernel
set_option maxRecDepth 100000 in
example : twice [tlsOid] [[.delResponse (said 0)], yes, rootSays] (.ok ()) = ([.error .unexpectedResponse, .ok ()], true, [LifeS.whoOid], some [.text (str "EXTERNAL")], 3) := by decide +kernel

/-- a server that shows its root DSE in all states, and accepts StartTLS; the state says whether it waits for a handshake, or TLS is on -/
def tlsDir : Directory (Bool × Bool) := ⟨fun _ _ _ => False, fun _ _ _ _ => False, fun _ _ found => found = [rootNow]⟩
def tlsLay : Layers (Bool × Bool) := ⟨fun d d' => d.2 = false ∧ d' = (true, false), id, fun d d' => d.1 = true ∧ d' = (false, true), fun d d' => d.1 = false ∧ d' = d⟩

/-- the hypotheses of `c106_start_tls` and `c106_starts` can be met -/
example : ∃ (peer : Peer (Bool × Bool)) (secure : Bool × Bool → (Bool × Bool) × Except Err Unit) (t : Api.Secured Received.Decoded (Bool × Bool)),
    Laurelin.Spec.WillingS.Willing tlsDir (fun d => d) peer ∧ Serves tlsDir (fun d => d) peer ∧ AnswersStartTls tlsLay (fun d => d) peer ∧ Handshakes tlsLay (fun d => d) secure ∧ SessionP.Ready t.client.link.st ∧
    Distinct DirP.sampleEnv.lower rootNow ∧ (Api.startTls codec (fun d => d.1.1) peer DirP.sampleEnv secure t).2 = .ok () := by
  obtain ⟨peer, hw, ha, hacc, hsec⟩ := c106_server_exists tlsDir tlsLay
  obtain ⟨secure, hh, hs⟩ := hsec (fun d => by
    obtain ⟨a, b⟩ := d
    cases a with
    | true => exact .inl ⟨_, rfl, rfl⟩
    | false => exact .inr ⟨_, rfl, rfl⟩)
  let t : Api.Secured Received.Decoded (Bool × Bool) := ⟨{ link := ⟨Session.St.init, (false, false)⟩, bound := false, closed := false, exts := [tlsOid], mechs := none, mech := none, fatal := true }, false, CIDict.empty⟩
  have hd : Distinct DirP.sampleEnv.lower rootNow := by unfold Distinct; decide
  refine ⟨peer, secure, t, hw, WillP.serves hw, ha, hh, SessionP.ready_init, hd, ?_⟩
  have he := WireR.has_enc ⟨2, Spec.DirectoryS.entryOp rootNow, none⟩ (octets 2 [Spec.DirectoryS.entryOp rootNow]) (by decide +kernel)
  have hfit := WillP.fits_of 1 (.extendedReq (utf8Enc tlsOid) none) none (by decide +kernel)
  refine c106_starts hw DirP.sampleEnv WillP.w_usable rfl t SessionP.ready_init rfl rfl (by decide) hfit (WillP.fits_of 2 _ none (by decide +kernel)) (fun bs hb => ?_)
  obtain ⟨r, h1, h2, h3⟩ := hacc (false, false) bs 1 none (true, false) hfit.1 hb ⟨rfl, rfl⟩
  refine ⟨⟨r, none, none, h1, ⟨[], rfl⟩, h2⟩, hs _ (false, true) ⟨by rw [show (peer t.client.link.peer bs).1 = (true, false) from h3.2], rfl⟩, rootNow, hd, ⟨rfl, (by intro e h; rw [List.mem_singleton.1 h]; decide), (by intro e h; rw [List.mem_singleton.1 h]; exact ⟨_, he.2⟩)⟩, fun _ h => h⟩

end StP
end Laurelin.Props
