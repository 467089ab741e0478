import Verif.Props.ConnUri
import Verif.Props.Utils
/-!
# C70, C71, C73: TLS connections, StartTLS, extended operations
-/
namespace Laurelin.Props
open Laurelin Spec Tls

namespace TlsP

/-! ### certificates -/

theorem commonName_last (cert : Cert) (cn : Str) : commonName cert.subject = .ok cn ↔ LastCommonName cert cn := by
  obtain ⟨subject, sans⟩ := cert
  simp only [LastCommonName]
  have none : ∀ l : List (Str × Str), (∀ p ∈ l, p.1 ≠ str "commonName") → ∃ e, commonName l = .error e := by
    intro l hl
    induction l with
    | nil => exact ⟨_, rfl⟩
    | cons p l ih =>
      obtain ⟨k, v⟩ := p
      obtain ⟨e, he⟩ := ih (fun p hp => hl p (by simp [hp]))
      exact ⟨e, by simp only [commonName, he, if_neg (hl (k, v) (by simp))]⟩
  have none' : ∀ l : List (Str × Str), ∀ e, commonName l = .error e → ∀ p ∈ l, p.1 ≠ str "commonName" := by
    intro l
    induction l with
    | nil => simp
    | cons p l ih =>
      obtain ⟨k, v⟩ := p
      intro e he
      simp only [commonName] at he
      split at he
      · cases he
      · rename_i e' he'
        split at he
        · cases he
        · rename_i hk
          intro q hq
          rcases List.mem_cons.1 hq with rfl | hq
          · exact hk
          · exact ih e' he' q hq
  induction subject with
  | nil => simp [commonName]
  | cons p l ih =>
    obtain ⟨k, v⟩ := p
    simp only [commonName]
    split
    · rename_i x hx
      constructor
      · intro h; cases h
        obtain ⟨pre, post, e, hp⟩ := ih.1 hx
        exact ⟨(k, v) :: pre, post, by simp [e], hp⟩
      · rintro ⟨pre, post, e, hp⟩
        cases pre with
        | nil =>
          obtain ⟨_, rfl⟩ := List.cons.inj e
          obtain ⟨e', he'⟩ := none _ hp
          rw [hx] at he'; cases he'
        | cons y pre =>
          obtain ⟨_, rfl⟩ := List.cons.inj e
          rw [← ih.2 ⟨pre, post, rfl, hp⟩, hx]
    · rename_i e he
      have hn := none' l e he
      split
      · rename_i hk
        constructor
        · intro h; cases h; exact ⟨[], l, by simp [hk], hn⟩
        · rintro ⟨pre, post, e', hp⟩
          cases pre with
          | nil =>
            obtain ⟨e1, _⟩ := List.cons.inj e'
            cases e1; rfl
          | cons y pre =>
            obtain ⟨_, rfl⟩ := List.cons.inj e'
            exact absurd rfl (hn (str "commonName", cn) (by simp))
      · rename_i hk
        constructor
        · intro h; cases h
        · rintro ⟨pre, post, e', hp⟩
          cases pre with
          | nil =>
            obtain ⟨e1, _⟩ := List.cons.inj e'
            cases e1; exact absurd rfl hk
          | cons y pre =>
            obtain ⟨_, rfl⟩ := List.cons.inj e'
            exact absurd rfl (hn (str "commonName", cn) (by simp))

theorem verifyCert_iff (host : Str) (cert : Cert) : verifyCert host true cert.subject cert.sans = .ok () ↔ NameAccepted host cert := by
  unfold NameAccepted verifyCert
  simp only [if_true]
  constructor
  · intro h
    split at h
    · cases h
    · rename_i cn hcn
      exact ⟨cn, (commonName_last cert cn).1 hcn, (c41_exact host cn cert.sans).1 h⟩
  · rintro ⟨cn, h1, h2⟩
    rw [(commonName_last cert cn).2 h1]
    exact (c41_exact host cn cert.sans).2 h2

/-! ### one socket -/

/-- how a socket changes: what it was made for stays, ids grow, messages are only added; once TLS is started the channel stays and the new messages travel on it; TLS is started only on a secure channel -/
structure Evo (pki : Pki) (s s' : Tls.Sock) : Prop where
  scheme : s'.scheme = s.scheme
  uri : s'.uri = s.uri
  host : s'.host = s.host
  ids : s.nextId ≤ s'.nextId
  sent : ∃ new, s'.sent = s.sent ++ new ∧ (s.startedTls = true → ∀ m ∈ new, m.chan = s.chan) ∧ (s.chan ≠ .plain → ∀ m ∈ new, m.chan ≠ .plain)
  noPlain : s.chan ≠ .plain → s'.chan ≠ .plain
  dead : s.chan = .dead → s'.chan = .dead ∧ s'.sent = s.sent
  started : s.startedTls = true → s'.startedTls = true ∧ s'.chan = s.chan
  secure : s'.startedTls = true → s.startedTls = true ∨ ∃ v cas, SecureChan pki s'.host v cas s'.chan

theorem Evo.refl (pki : Pki) (s : Tls.Sock) : Evo pki s s := ⟨rfl, rfl, rfl, Nat.le_refl _, ⟨[], by simp⟩, id, fun h => ⟨h, rfl⟩, fun h => ⟨h, rfl⟩, fun h => .inl h⟩

theorem Evo.trans {pki : Pki} {a b c : Tls.Sock} (h1 : Evo pki a b) (h2 : Evo pki b c) : Evo pki a c := by
  obtain ⟨n1, e1, p1, q1⟩ := h1.sent
  obtain ⟨n2, e2, p2, q2⟩ := h2.sent
  refine ⟨h2.scheme.trans h1.scheme, h2.uri.trans h1.uri, h2.host.trans h1.host, Nat.le_trans h1.ids h2.ids, ⟨n1 ++ n2, by rw [e2, e1, List.append_assoc], ?_, ?_⟩,
    fun h => h2.noPlain (h1.noPlain h), fun h => ⟨(h2.dead (h1.dead h).1).1, (h2.dead (h1.dead h).1).2.trans (h1.dead h).2⟩, ?_, ?_⟩
  · intro hs m hm
    rcases List.mem_append.1 hm with hm | hm
    · exact p1 hs m hm
    · rw [p2 (h1.started hs).1 m hm, (h1.started hs).2]
  · intro hs m hm
    rcases List.mem_append.1 hm with hm | hm
    · exact q1 hs m hm
    · exact q2 (h1.noPlain hs) m hm
  · intro hs
    exact ⟨(h2.started (h1.started hs).1).1, ((h2.started (h1.started hs).1).2).trans (h1.started hs).2⟩
  · intro hs
    rcases h2.secure hs with hb | h
    · rcases h1.secure hb with ha | ⟨v, cas, h⟩
      · exact .inl ha
      · refine .inr ⟨v, cas, ?_⟩
        rw [h2.host, (h2.started hb).2]; exact h
    · exact .inr h

/-- changes of the reference count, the queues or the closed flag -/
theorem Evo.of_fields {pki : Pki} {s s' : Tls.Sock} (h1 : s'.scheme = s.scheme) (h2 : s'.uri = s.uri) (h3 : s'.host = s.host) (h4 : s'.nextId = s.nextId) (h5 : s'.sent = s.sent)
    (h6 : s'.startedTls = s.startedTls) (h7 : s'.chan = s.chan) : Evo pki s s' :=
  ⟨h1, h2, h3, by omega, ⟨[], by simp [h5]⟩, fun h => by rw [h7]; exact h, fun h => ⟨h7.trans h, h5⟩, fun h => ⟨h6.trans h, h7⟩, fun h => .inl (h6 ▸ h)⟩

theorem evo_send {pki : Pki} {s s' : Tls.Sock} {r : Req} {x : Except Err Nat} (h : s.send r = (x, s')) : Evo pki s s' := by
  unfold Tls.Sock.send at h
  split at h
  · cases h; exact ⟨rfl, rfl, rfl, by simp, ⟨[], by simp⟩, id, fun h => ⟨h, rfl⟩, fun h => ⟨h, rfl⟩, fun h => .inl h⟩
  · split at h
    · cases h; exact ⟨rfl, rfl, rfl, by simp, ⟨[], by simp⟩, id, fun h => ⟨h, rfl⟩, fun h => ⟨h, rfl⟩, fun h => .inl h⟩
    · rename_i hd
      cases h; exact ⟨rfl, rfl, rfl, by simp, ⟨[⟨s.chan, s.nextId, r⟩], rfl, by simp, by simp⟩, id, fun h => absurd (.inr h) hd, fun h => ⟨h, rfl⟩, fun h => .inl h⟩

theorem recv_fields {σ α : Type} {step : σ → Chan × Resp → Step σ α} {init : σ} {s s' : Tls.Sock} {mid : Nat} {inc : List (List Msg)} {x : Option (Except Err α)}
    (h : s.recv step init mid inc = (x, s')) : ∃ q, s' = { s with queues := q } := by
  unfold Tls.Sock.recv at h
  split at h
  · cases h; exact ⟨_, rfl⟩
  · simp only at h
    split at h <;> (cases h; exact ⟨_, rfl⟩)

theorem evo_recv {σ α : Type} {pki : Pki} {step : σ → Chan × Resp → Step σ α} {init : σ} {s s' : Tls.Sock} {mid : Nat} {inc : List (List Msg)} {x : Option (Except Err α)}
    (h : s.recv step init mid inc = (x, s')) : Evo pki s s' := by
  obtain ⟨q, rfl⟩ := recv_fields h
  exact .of_fields rfl rfl rfl rfl rfl rfl rfl

theorem evo_readDse {pki : Pki} {s s' : Tls.Sock} {inc : List (List Msg)} {x : Option (Except Err (Chan × Dse))} (h : s.readDse inc = (x, s')) : Evo pki s s' := by
  unfold Tls.Sock.readDse at h
  split at h
  · cases h; exact .refl _ _
  · split at h
    · rename_i e; cases h; exact evo_send e
    · rename_i e; exact (evo_send e).trans (evo_recv h)

theorem evo_extended {pki : Pki} {s s' : Tls.Sock} {dse : Dse} {oid : Str} {inc : List (List Msg)} {x : Option (Except Err (Chan × Str))}
    (h : s.extended dse oid inc = (x, s')) : Evo pki s s' := by
  unfold Tls.Sock.extended at h
  split at h
  · split at h
    · rename_i e; cases h; exact evo_send e
    · rename_i e; exact (evo_send e).trans (evo_recv h)
  · cases h; exact .refl _ _

/-- a successful `start_tls` of a socket -/
theorem startTls_ok {pki : Pki} {s s' : Tls.Sock} {verify : Bool} {cas : Cas} {peer : Except Err Cert} (h : s.startTls pki verify cas peer = (.ok (), s')) :
    s.startedTls = false ∧ s'.startedTls = true ∧ (∃ cert, peer = .ok cert ∧ s'.chan = .tls verify cas cert) ∧ SecureChan pki s.host verify cas s'.chan ∧ s.unbound = false ∧ s.chan ≠ .dead := by
  unfold Tls.Sock.startTls at h
  split at h
  · cases h
  · rename_i hst
    split at h
    · cases h
    · rename_i cert s1 e
      unfold wrap at e
      split at e
      · cases e
      · split at e
        · cases e
        · rename_i hal
          simp only [not_or] at hal
          split at e
          · cases e
          · rename_i cert'
            split at e
            · cases e
            · rename_i ht
              cases e
              split at h
              · cases h
              · rename_i hv
                cases h
                refine ⟨by simpa using hst, rfl, ⟨cert, rfl, rfl⟩, ⟨cert, rfl, ?_⟩, by simpa using hal.1, hal.2⟩
                intro hver
                subst hver
                exact ⟨by simpa using ht, (verifyCert_iff s.host cert).1 hv⟩

theorem startTls_err_started {pki : Pki} {s s' : Tls.Sock} {verify : Bool} {cas : Cas} {peer : Except Err Cert} {e : Err} (h : s.startTls pki verify cas peer = (.error e, s')) :
    s'.startedTls = s.startedTls ∧ (s.startedTls = true → s' = s) ∧ (s.chan = .dead → s'.chan = .dead) ∧ (s.chan ≠ .plain → s'.chan ≠ .plain) := by
  unfold Tls.Sock.startTls at h
  split at h
  · cases h; exact ⟨rfl, fun _ => rfl, id, id⟩
  · rename_i hst
    have hw : ∀ r s1, wrap pki s verify cas peer = (r, s1) → s1.startedTls = s.startedTls ∧ (s.chan = .dead → s1.chan = .dead) ∧ (s.chan ≠ .plain → s1.chan ≠ .plain) := by
      intro r s1 h
      unfold wrap at h
      split at h
      · cases h; exact ⟨rfl, id, id⟩
      · split at h
        · cases h; exact ⟨rfl, id, id⟩
        · rename_i hd
          split at h
          · cases h; exact ⟨rfl, fun _ => rfl, fun _ => nofun⟩
          · split at h
            · cases h; exact ⟨rfl, fun _ => rfl, fun _ => nofun⟩
            · cases h; exact ⟨rfl, fun q => absurd (.inr q) hd, fun _ => nofun⟩
    split at h
    · rename_i e'; cases h; exact ⟨(hw _ _ e').1, fun q => absurd q hst, (hw _ _ e').2⟩
    · rename_i e'
      split at h
      · cases h; exact ⟨(hw _ _ e').1, fun q => absurd q hst, (hw _ _ e').2⟩
      · cases h

theorem evo_startTls {pki : Pki} {s s' : Tls.Sock} {verify : Bool} {cas : Cas} {peer : Except Err Cert} {r : Except Err Unit} (h : s.startTls pki verify cas peer = (r, s')) : Evo pki s s' := by
  obtain ⟨e1, e2, e3, e4, e5, e6, e7, _⟩ := UriP.startTls_fields h
  cases r with
  | error e =>
    obtain ⟨q1, q2, q3, q4⟩ := startTls_err_started h
    refine ⟨e1, e2, e3, by omega, ⟨[], by simp [e4]⟩, q4, fun h => ⟨q3 h, e4⟩, ?_, fun q => .inl (q1 ▸ q)⟩
    intro hs; rw [q2 hs]; exact ⟨hs, rfl⟩
  | ok u =>
    obtain ⟨q1, q2, ⟨_, _, q3⟩, q4, _, q5⟩ := startTls_ok h
    refine ⟨e1, e2, e3, by omega, ⟨[], by simp [e4]⟩, fun _ => by rw [q3]; nofun, fun h => absurd h q5, fun hs => ?_, fun _ => .inr ⟨verify, cas, e3 ▸ q4⟩⟩
    rw [q1] at hs; cases hs

theorem evo_ldapStartTls {pki : Pki} {s s' : Tls.Sock} {dse : Dse} {verify : Bool} {cas : Cas} {peer : Except Err Cert} {inc1 inc2 : List (List Msg)} {x : Option (Except Err (Chan × Dse))}
    (h : s.ldapStartTls pki dse verify cas peer inc1 inc2 = (x, s')) : Evo pki s s' := by
  unfold Tls.Sock.ldapStartTls at h
  split at h
  · cases h; exact .refl _ _
  · split at h
    · rename_i e; cases h; exact evo_extended e
    · rename_i e; cases h; exact evo_extended e
    · rename_i e
      split at h
      · rename_i e2; cases h; exact (evo_extended e).trans (evo_startTls e2)
      · rename_i e2; exact (evo_extended e).trans ((evo_startTls e2).trans (evo_readDse h))

/-! ### all sockets -/

/-- how the list of sockets changes in a call: each socket evolves, and a socket that is new comes from a URI -/
structure EvoAll (unq : Str → Str) (pki : Pki) (net : Net) (st st' : Tls.St) : Prop where
  old : ∀ (k : Nat) (s : Tls.Sock), st.socks[k]? = some s → ∃ s', st'.socks[k]? = some s' ∧ Evo pki s s'
  new : ∀ (k : Nat) (s' : Tls.Sock), st'.socks[k]? = some s' → (∃ s, st.socks[k]? = some s) ∨
    ∃ u verify cas peer s0, newSock unq pki net u verify cas peer = .ok s0 ∧ Evo pki s0 s'

theorem evoAll_refl (unq : Str → Str) (pki : Pki) (net : Net) (st : Tls.St) : EvoAll unq pki net st st :=
  ⟨fun _ s h => ⟨s, h, .refl _ _⟩, fun _ s h => .inl ⟨s, h⟩⟩

theorem evoAll_of_socks {unq : Str → Str} {pki : Pki} {net : Net} {st st' : Tls.St} (k : Nat) (s s' : Tls.Sock) (hs : st.socks[k]? = some s) (he : Evo pki s s')
    (h : st'.socks = st.socks.set k s') : EvoAll unq pki net st st' := by
  have hk : k < st.socks.length := (List.getElem?_eq_some_iff.1 hs).1
  constructor
  · intro j t ht
    rw [h, List.getElem?_set]
    by_cases hj : k = j
    · subst hj
      rw [if_pos rfl, if_pos hk]
      rw [hs] at ht; cases ht
      exact ⟨s', rfl, he⟩
    · rw [if_neg hj]; exact ⟨t, ht, .refl _ _⟩
  · intro j t ht
    rw [h, List.getElem?_set] at ht
    by_cases hj : k = j
    · subst hj; exact .inl ⟨s, hs⟩
    · rw [if_neg hj] at ht; exact .inl ⟨t, ht⟩

theorem evoAll_trans {unq : Str → Str} {pki : Pki} {net : Net} {a b c : Tls.St} (h1 : EvoAll unq pki net a b) (h2 : EvoAll unq pki net b c) : EvoAll unq pki net a c := by
  constructor
  · intro k s hs
    obtain ⟨t, ht, e1⟩ := h1.old k s hs
    obtain ⟨u, hu, e2⟩ := h2.old k t ht
    exact ⟨u, hu, e1.trans e2⟩
  · intro k s hs
    rcases h2.new k s hs with ⟨t, ht⟩ | h
    · rcases h1.new k t ht with h | ⟨u, v, cas, p, s0, h, e⟩
      · exact .inl h
      · obtain ⟨s', hs', e'⟩ := h2.old k t ht
        rw [hs] at hs'; cases hs'
        exact .inr ⟨u, v, cas, p, s0, h, e.trans e'⟩
    · exact .inr h

theorem attach_socks {pki : Pki} {st st' : Tls.St} {k : Nat} {verify : Bool} {cas : Cas} {inc : List (List Msg)} {o : Out} (h : st.attach k verify cas inc = (o, st')) :
    st' = st ∨ ∃ s s', st.socks[k]? = some s ∧ st'.socks = st.socks.set k s' ∧ Evo pki s s' ∧ st'.table = st.table ∧
      (∃ x, ({ s with refcount := s.refcount + 1 } : Tls.Sock).readDse inc = (x, s')) := by
  unfold Tls.St.attach at h
  split at h
  · cases h; exact .inl rfl
  · rename_i s hs
    have hr : Evo pki s { s with refcount := s.refcount + 1 } := .of_fields rfl rfl rfl rfl rfl rfl rfl
    split at h
    all_goals (rename_i e; cases h; exact .inr ⟨s, _, hs, rfl, hr.trans (evo_readDse e), rfl, _, e⟩)

theorem evoAll_attach {unq : Str → Str} {pki : Pki} {net : Net} {st st' : Tls.St} {k : Nat} {verify : Bool} {cas : Cas} {inc : List (List Msg)} {o : Out}
    (h : st.attach k verify cas inc = (o, st')) : EvoAll unq pki net st st' := by
  rcases attach_socks (pki := pki) h with rfl | ⟨s, s', h1, h2, h3, _⟩
  · exact evoAll_refl _ _ _ _
  · exact evoAll_of_socks k s s' h1 h3 h2

theorem evoAll_push {unq : Str → Str} {pki : Pki} {net : Net} {st st' : Tls.St} {u : Str} {verify : Bool} {cas : Cas} {peer : Except Err Cert} {s : Tls.Sock}
    (h : newSock unq pki net u verify cas peer = .ok s) (hs : st'.socks = st.socks ++ [s]) : EvoAll unq pki net st st' := by
  constructor
  · intro k t ht
    have hk : k < st.socks.length := (List.getElem?_eq_some_iff.1 ht).1
    rw [hs, List.getElem?_append_left hk]
    exact ⟨t, ht, .refl _ _⟩
  · intro k t ht
    rw [hs] at ht
    by_cases hk : k < st.socks.length
    · rw [List.getElem?_append_left hk] at ht; exact .inl ⟨t, ht⟩
    · rw [List.getElem?_append_right (by omega)] at ht
      cases hj : k - st.socks.length with
      | zero =>
        rw [hj] at ht
        cases ht
        exact .inr ⟨u, verify, cas, peer, s, h, .refl _ _⟩
      | succ j => rw [hj] at ht; simp at ht

theorem evoAll_step (unq : Str → Str) (pki : Pki) (net : Net) (st : Tls.St) (e : Tls.Ev) : EvoAll unq pki net st (st.step unq pki net e).2 := by
  cases e with
  | connect u reuse verify cas peer inc =>
    simp only [Tls.St.step, Tls.St.connect]
    split
    · exact evoAll_attach rfl
    · split
      · exact evoAll_refl _ _ _ _
      · rename_i s hs
        exact evoAll_trans (evoAll_push hs (by rfl)) (evoAll_attach rfl)
  | startTls i verify cas peer inc1 inc2 =>
    simp only [Tls.St.step, Tls.St.startTls]
    split
    · exact evoAll_refl _ _ _ _
    · split
      · exact evoAll_refl _ _ _ _
      · rename_i s hs
        split
        all_goals (rename_i e; exact evoAll_of_socks _ _ _ hs (evo_ldapStartTls e) rfl)
  | whoAmI i inc =>
    simp only [Tls.St.step, Tls.St.whoAmI]
    split
    · exact evoAll_refl _ _ _ _
    · split
      · exact evoAll_refl _ _ _ _
      · rename_i s hs
        split
        all_goals (rename_i e; exact evoAll_of_socks _ _ _ hs (evo_extended e) rfl)
  | operation i inc =>
    simp only [Tls.St.step, Tls.St.operation]
    split
    · exact evoAll_refl _ _ _ _
    · split
      · exact evoAll_refl _ _ _ _
      · rename_i s hs
        split
        · exact evoAll_refl _ _ _ _
        · split
          · rename_i e; exact evoAll_of_socks _ _ _ hs (evo_send e) rfl
          · rename_i e
            split
            all_goals (rename_i e2; exact evoAll_of_socks _ _ _ hs ((evo_send e).trans (evo_recv e2)) rfl)
  | unbind i force =>
    simp only [Tls.St.step, Tls.St.unbind]
    split
    · exact evoAll_refl _ _ _ _
    · split
      · exact evoAll_refl _ _ _ _
      · rename_i s hs
        have hr : Evo pki s { s with refcount := s.refcount - 1 } := .of_fields rfl rfl rfl rfl rfl rfl rfl
        split
        · exact evoAll_refl _ _ _ _
        · split
          · split
            · rename_i e; exact evoAll_of_socks _ _ _ hs (hr.trans (evo_send e)) rfl
            · rename_i e
              refine evoAll_of_socks _ _ _ hs ((hr.trans (evo_send e)).trans (.of_fields ?_ ?_ ?_ ?_ ?_ ?_ ?_)) rfl <;> rfl
          · exact evoAll_of_socks _ _ _ hs hr rfl

theorem evoAll_run (unq : Str → Str) (pki : Pki) (net : Net) (st : Tls.St) (es : List Tls.Ev) : EvoAll unq pki net st (st.run unq pki net es) := by
  induction es generalizing st with
  | nil => exact evoAll_refl _ _ _ _
  | cons e es ih => exact evoAll_trans (evoAll_step unq pki net st e) (ih _)

/-- a fresh `ldaps` socket -/
theorem newSock_ldaps {unq : Str → Str} {pki : Pki} {net : Net} {u : Str} {verify : Bool} {cas : Cas} {peer : Except Err Cert} {s : Tls.Sock}
    (h : newSock unq pki net u verify cas peer = .ok s) (hs : s.scheme = str "ldaps") :
    s.startedTls = true ∧ SecureChan pki s.host verify cas s.chan ∧ ∃ cert, peer = .ok cert ∧ s.chan = .tls verify cas cert := by
  have hc := c72_connected unq pki net u verify cas peer s h
  obtain ⟨netloc, t, hp, ht, _⟩ := hc
  unfold newSock at h
  rw [hp] at h
  simp only at h
  rw [ht] at h
  simp only at h
  rw [if_pos hs] at h
  split at h
  · cases h
  · rename_i s' e
    simp only [Except.ok.injEq] at h
    subst h
    obtain ⟨_, h2, h3, h4, _⟩ := startTls_ok e
    have hh := (UriP.startTls_fields e).2.2.1
    exact ⟨h2, hh ▸ h4, h3⟩

end TlsP

open TlsP

/-! ## C70 -/

/-- **C70.** On every socket made for an `ldaps` URI, in every history of calls, everything is sent through one TLS channel – never in plain text – and if that channel was set up with verification the peer has a
trusted certificate accepted for the host. -/
theorem c70_ldaps (unq : Str → Str) (pki : Pki) (net : Net) (es : List Tls.Ev) (s : Tls.Sock) (hs : s ∈ (({} : Tls.St).run unq pki net es).socks) (hl : s.scheme = str "ldaps") :
    ∃ verify cas, SecureChan pki s.host verify cas s.chan ∧ ∀ m ∈ s.sent, m.chan = s.chan := by
  obtain ⟨k, hk⟩ := List.getElem?_of_mem hs
  rcases (evoAll_run unq pki net {} es).new k s hk with ⟨s0, h⟩ | ⟨u, v, cas, p, s0, h, e⟩
  · simp at h
  · have hsch : s0.scheme = str "ldaps" := e.scheme ▸ hl
    obtain ⟨h1, h2, _⟩ := newSock_ldaps h hsch
    obtain ⟨_, _, _, _, _, h3, _⟩ := c72_connected unq pki net u v cas p s0 h
    obtain ⟨_, hch⟩ := e.started h1
    refine ⟨v, cas, by rw [e.host, hch]; exact h2, ?_⟩
    obtain ⟨new, e1, e2, _⟩ := e.sent
    intro m hm
    rw [e1, h3, List.nil_append] at hm
    rw [e2 h1 m hm, hch]

/-- **C70.** An `ldaps` connection of one's own (not reused) with verification on: in every continuation, everything sent on its socket goes through a TLS channel with the CA settings asked for, to a peer with a certificate trusted under them and accepted for
the host. -/
theorem c70_private (unq : Str → Str) (pki : Pki) (net : Net) (st : Tls.St) (u netloc : Str) (cas : Cas) (peer : Except Err Cert) (inc : List (List Msg))
    (hu : parseUri unq u = .ok (str "ldaps", netloc)) (h : (st.connect unq pki net u false true cas peer inc).1 = .ok) (es : List Tls.Ev) :
    let st1 := (st.connect unq pki net u false true cas peer inc).2
    ∃ s, (st1.run unq pki net es).socks[st.socks.length]? = some s ∧ SecureChan pki s.host true cas s.chan ∧ (∀ m ∈ s.sent, m.chan = s.chan) ∧
      st1.insts.getLast?.map (·.sock) = some st.socks.length := by
  intro st1
  have hst1 : st1 = (st.connect unq pki net u false true cas peer inc).2 := rfl
  clear_value st1
  generalize hr : st.connect unq pki net u false true cas peer inc = r at h hst1
  obtain ⟨o, st2⟩ := r
  simp only at h hst1
  subst h hst1
  unfold Tls.St.connect at hr
  simp only [Bool.false_eq_true, if_false] at hr
  split at hr
  · cases hr
  · rename_i s0 hs0
    have hsch : s0.scheme = str "ldaps" := by
      obtain ⟨_, _, hp, _⟩ := c72_connected unq pki net u true cas peer s0 hs0
      rw [hu] at hp
      simp only [Except.ok.injEq, Prod.mk.injEq] at hp
      exact hp.1.symm
    obtain ⟨h1, h2, _⟩ := newSock_ldaps hs0 hsch
    obtain ⟨_, _, _, _, _, h3, _⟩ := c72_connected unq pki net u true cas peer s0 hs0
    have key := evoAll_trans (evoAll_attach (unq := unq) (pki := pki) (net := net) hr) (evoAll_run unq pki net st1 es)
    obtain ⟨s, hs, e⟩ := key.old st.socks.length s0 (by simp)
    obtain ⟨_, hch⟩ := e.started h1
    refine ⟨s, hs, by rw [e.host, hch]; exact h2, ?_, ?_⟩
    · obtain ⟨new, e1, e2, _⟩ := e.sent
      intro m hm
      rw [e1, h3, List.nil_append] at hm
      rw [e2 h1 m hm, hch]
    · unfold Tls.St.attach at hr
      split at hr
      · cases hr
      · split at hr
        · cases hr
        · cases hr
        · cases hr; simp

/-- **C70.** A certificate that is not trusted, or not accepted for the host, fails the connection: no socket, nothing sent. -/
theorem c70_refused (unq : Str → Str) (pki : Pki) (net : Net) (st : Tls.St) (u netloc : Str) (t : Target) (reuse : Bool) (cas : Cas) (cert : Cert) (inc : List (List Msg))
    (hu : parseUri unq u = .ok (str "ldaps", netloc)) (ht : dial net (str "ldaps") netloc = .ok t) (hr : reuse = false ∨ st.table.get? u = none)
    (hbad : pki.trusted cas cert = false ∨ ¬ NameAccepted t.host cert) :
    ∃ e, st.connect unq pki net u reuse true cas (.ok cert) inc = (.err e, st) := by
  have hn : ∃ e, newSock unq pki net u true cas (.ok cert) = .error e := by
    cases hx : newSock unq pki net u true cas (.ok cert) with
    | error e => exact ⟨e, rfl⟩
    | ok s =>
      exfalso
      obtain ⟨nl, t', hp, ht', hh, _⟩ := c72_connected unq pki net u true cas (.ok cert) s hx
      rw [hu] at hp
      simp only [Except.ok.injEq, Prod.mk.injEq] at hp
      obtain ⟨hsch, rfl⟩ := hp
      obtain ⟨_, ⟨cert', h1, h2⟩, cert2, h3, h4⟩ := newSock_ldaps hx hsch.symm
      rw [← hsch, ht] at ht'
      cases ht'
      cases h3
      rw [h4] at h1; cases h1
      rcases hbad with hb | hb
      · rw [(h2 rfl).1] at hb; cases hb
      · exact hb (hh ▸ (h2 rfl).2)
  obtain ⟨e, he⟩ := hn
  refine ⟨e, ?_⟩
  unfold Tls.St.connect
  have : (if reuse = true then st.table.get? u else none) = none := by
    rcases hr with rfl | h
    · rfl
    · rw [h]; split <;> rfl
  rw [this]
  simp only [he]

end Laurelin.Props
