import Verif.Props.Tls
/-!
# C71, C73: StartTLS and extended operations
-/
namespace Laurelin.Props
open Laurelin Spec Tls TlsP

namespace TlsP

theorem send_ok {s s' : Tls.Sock} {r : Req} {mid : Nat} (h : s.send r = (.ok mid, s')) :
    mid = s.nextId ∧ s' = { s with nextId := s.nextId + 1, sent := s.sent ++ [⟨s.chan, s.nextId, r⟩] } ∧ s.unbound = false ∧ s.chan ≠ .dead := by
  unfold Tls.Sock.send at h
  split at h
  · cases h
  · split at h
    · cases h
    · rename_i hd
      simp only [not_or] at hd
      cases h; exact ⟨rfl, rfl, by simpa using hd.1, hd.2⟩

theorem send_alive {s : Tls.Sock} (r : Req) (h1 : s.nextId ≤ Conn.maxInt) (h2 : s.unbound = false) (h3 : s.chan ≠ .dead) :
    s.send r = (.ok s.nextId, { s with nextId := s.nextId + 1, sent := s.sent ++ [⟨s.chan, s.nextId, r⟩] }) := by
  unfold Tls.Sock.send
  rw [if_neg (by omega), if_neg (by simp [h2, h3])]

/-- no answer to this id and nothing unsolicited -/
def Quiet (mid : Nat) (ms : List Msg) : Prop := ∀ m ∈ ms, m.mid ≠ mid ∧ m.mid ≠ 0

theorem readChunk_cases {α : Type} (f : Chan × Resp → Except Err α) (mid : Nat) (ch : Chan) (ms : List Msg) (q : PDict Nat (List (Chan × Resp))) :
    (∃ pre r post, ms = pre ++ ⟨mid, r⟩ :: post ∧ Quiet mid pre ∧ (readChunk (fun (_ : Unit) m => .fin (f m)) mid ch ms () q).1 = .fin (f (ch, r))) ∨
    (∃ pre x post, ms = pre ++ x :: post ∧ Quiet mid pre ∧ x.mid = 0 ∧ x.mid ≠ mid ∧ (readChunk (fun (_ : Unit) m => .fin (f m)) mid ch ms () q).1 = .fin (.error .unsolicited)) ∨
    (Quiet mid ms ∧ (readChunk (fun (_ : Unit) m => .fin (f m)) mid ch ms () q).1 = .more ()) := by
  induction ms generalizing q with
  | nil => exact .inr (.inr ⟨by simp [Quiet], rfl⟩)
  | cons m ms ih =>
    obtain ⟨i, r⟩ := m
    simp only [readChunk]
    by_cases h1 : mid = i
    · subst h1
      rw [if_pos rfl]
      exact .inl ⟨[], r, ms, rfl, by simp [Quiet], rfl⟩
    · rw [if_neg h1]
      by_cases h2 : i = 0
      · rw [if_pos h2]
        exact .inr (.inl ⟨[], ⟨i, r⟩, ms, rfl, by simp [Quiet], h2, fun e => h1 e.symm, rfl⟩)
      · rw [if_neg h2]
        have cons : ∀ pre, Quiet mid pre → Quiet mid (⟨i, r⟩ :: pre) := by
          intro pre hp m hm
          rcases List.mem_cons.1 hm with rfl | hm
          · exact ⟨fun e => h1 e.symm, h2⟩
          · exact hp m hm
        rcases ih (pushQ q i (ch, r)) with ⟨pre, r', post, e, hp, hr⟩ | ⟨pre, x, post, e, hp, hx, hx', hr⟩ | ⟨hp, hr⟩
        · exact .inl ⟨⟨i, r⟩ :: pre, r', post, by simp [e], cons _ hp, hr⟩
        · exact .inr (.inl ⟨⟨i, r⟩ :: pre, x, post, by simp [e], cons _ hp, hx, hx', hr⟩)
        · exact .inr (.inr ⟨cons _ hp, hr⟩)

theorem readChunks_cases {α : Type} (f : Chan × Resp → Except Err α) (mid : Nat) (ch : Chan) (inc : List (List Msg)) (q : PDict Nat (List (Chan × Resp))) :
    (∃ r, FirstFor mid inc r ∧ (readChunks (fun (_ : Unit) m => .fin (f m)) mid ch inc () q).1 = some (f (ch, r))) ∨
    (∃ pre x post, inc.flatten = pre ++ x :: post ∧ Quiet mid pre ∧ x.mid = 0 ∧ x.mid ≠ mid ∧ (readChunks (fun (_ : Unit) m => .fin (f m)) mid ch inc () q).1 = some (.error .unsolicited)) ∨
    (Quiet mid inc.flatten ∧ (readChunks (fun (_ : Unit) m => .fin (f m)) mid ch inc () q).1 = none) := by
  induction inc generalizing q with
  | nil => exact .inr (.inr ⟨by simp [Quiet], rfl⟩)
  | cons c cs ih =>
    simp only [readChunks]
    have h := readChunk_cases f mid ch c q
    cases hr : readChunk (fun (_ : Unit) m => Step.fin (f m)) mid ch c () q with
    | mk a q' =>
      rw [hr] at h
      rcases h with ⟨pre, r, post, e, hp, ha⟩ | ⟨pre, x, post, e, hp, hx, hx', ha⟩ | ⟨hp, ha⟩
      · simp only at ha; subst ha
        exact .inl ⟨r, ⟨pre, post ++ cs.flatten, by simp [e], hp⟩, rfl⟩
      · simp only at ha; subst ha
        exact .inr (.inl ⟨pre, x, post ++ cs.flatten, by simp [e], hp, hx, hx', rfl⟩)
      · simp only at ha; subst ha
        simp only
        have app : ∀ pre, Quiet mid pre → Quiet mid (c ++ pre) := by
          intro pre h m hm
          rcases List.mem_append.1 hm with hm | hm
          · exact hp m hm
          · exact h m hm
        rcases ih q' with ⟨r, ⟨pre, post, e, hp'⟩, hr⟩ | ⟨pre, x, post, e, hp', hx, hx', hr⟩ | ⟨hp', hr⟩
        · exact .inl ⟨r, ⟨c ++ pre, post, by simp [e], app _ hp'⟩, hr⟩
        · exact .inr (.inl ⟨c ++ pre, x, post, by simp [e], app _ hp', hx, hx', hr⟩)
        · exact .inr (.inr ⟨by rw [List.flatten_cons]; exact app _ hp', hr⟩)

theorem first_unique {P : Msg → Prop} {pre pre' post post' : List Msg} {a b : Msg} (e : pre ++ a :: post = pre' ++ b :: post') (h1 : ∀ m ∈ pre, P m) (h2 : ∀ m ∈ pre', P m) (ha : ¬ P a) (hb : ¬ P b) : a = b := by
  induction pre generalizing pre' with
  | nil =>
    cases pre' with
    | nil => exact (List.cons.inj e).1
    | cons x t => exact absurd (h2 a (by rw [(List.cons.inj e).1]; simp)) ha
  | cons y t ih =>
    cases pre' with
    | nil => exact absurd (h1 b (by rw [← (List.cons.inj e).1]; simp)) hb
    | cons x t' => exact ih (List.cons.inj e).2 (fun m hm => h1 m (by simp [hm])) (fun m hm => h2 m (by simp [hm]))

end TlsP

namespace Spec'

/-- The message a request waiting for its first answer gets: the first one already queued for its id, else the first one with its id that arrives on the socket's channel. -/
def Answer (s : Tls.Sock) (mid : Nat) (inc : List (List Msg)) (c : Chan) (r : Resp) : Prop :=
  (∃ rest, s.queues.get? mid = some ((c, r) :: rest)) ∨
  ((s.queues.get? mid).getD [] = [] ∧ s.unbound = false ∧ s.chan ≠ .dead ∧ c = s.chan ∧ FirstFor mid inc r)

end Spec'
open Spec'

namespace TlsP

theorem recv_answer {α : Type} (f : Chan × Resp → Except Err α) (s : Tls.Sock) (mid : Nat) (inc : List (List Msg)) (c : Chan) (r : Resp) (h : Answer s mid inc c r) :
    (s.recv (fun (_ : Unit) m => .fin (f m)) () mid inc).1 = some (f (c, r)) := by
  unfold Tls.Sock.recv
  rcases h with ⟨rest, h⟩ | ⟨h1, h2, h3, rfl, h4⟩
  · simp [h, drain]
  · rw [h1]
    simp only [drain]
    rw [if_neg (by simp [h2, h3])]
    simp only
    rcases readChunks_cases f mid s.chan inc (s.queues.erase mid) with ⟨r', h5, h6⟩ | ⟨pre, x, post, e, hp, hx, hx', h6⟩ | ⟨hp, h6⟩
    · rw [h6]
      obtain ⟨p1, q1, e1, g1⟩ := h4
      obtain ⟨p2, q2, e2, g2⟩ := h5
      have := first_unique (P := fun m => m.mid ≠ mid ∧ m.mid ≠ 0) (e1.symm.trans e2) g1 g2 (by simp) (by simp)
      cases this; rfl
    · obtain ⟨p1, q1, e1, g1⟩ := h4
      have := first_unique (P := fun m => m.mid ≠ mid ∧ m.mid ≠ 0) (e1.symm.trans e) g1 hp (by simp) (by simp [hx])
      subst this
      exact absurd rfl hx'
    · obtain ⟨p1, q1, e1, g1⟩ := h4
      exact absurd rfl (hp ⟨mid, r⟩ (by rw [e1]; simp)).1

theorem recv_answer_inv {α : Type} (f : Chan × Resp → Except Err α) (s s' : Tls.Sock) (mid : Nat) (inc : List (List Msg)) (a : α)
    (h : s.recv (fun (_ : Unit) m => .fin (f m)) () mid inc = (some (.ok a), s')) : ∃ c r, Answer s mid inc c r ∧ f (c, r) = .ok a := by
  unfold Tls.Sock.recv at h
  cases hq : (s.queues.get? mid).getD [] with
  | cons m rest =>
    rw [hq] at h
    simp only [drain, Prod.mk.injEq, Option.some.injEq] at h
    obtain ⟨c, r⟩ := m
    refine ⟨c, r, .inl ⟨rest, ?_⟩, h.1⟩
    cases hg : s.queues.get? mid with
    | none => rw [hg] at hq; cases hq
    | some q => rw [hg] at hq; simp only [Option.getD_some] at hq; rw [hq]
  | nil =>
    rw [hq] at h
    simp only [drain] at h
    split at h
    · cases h
    · rename_i hd
      simp only [not_or] at hd
      simp only [Prod.mk.injEq] at h
      rcases readChunks_cases f mid s.chan inc (s.queues.erase mid) with ⟨r', h5, h6⟩ | ⟨pre, x, post, e, hp, hx, hx', h6⟩ | ⟨hp, h6⟩
      · rw [h6] at h
        refine ⟨s.chan, r', .inr ⟨hq, by simpa using hd.1, hd.2, rfl, h5⟩, ?_⟩
        exact Option.some.inj h.1
      · rw [h6] at h
        exact absurd (Option.some.inj h.1) nofun
      · rw [h6] at h; cases h.1

/-- `extStep` and `opStep` look at one message -/
def extRes : Chan × Resp → Except Err (Chan × Str)
  | (c, .inter v) => .ok (c, v.getD [])
  | (c, .ext true v) => .ok (c, v.getD [])
  | (_, .ext false _) => .error .ldapError
  | _ => .error .unexpectedResponse

theorem extStep_eq : extStep = fun (_ : Unit) m => .fin (extRes m) := by
  funext u m
  obtain ⟨c, r⟩ := m
  cases r with
  | ext ok v => cases ok <;> rfl
  | _ => rfl

def opRes : Chan × Resp → Except Err (Chan × Str)
  | (c, .result true) => .ok (c, [])
  | (_, .result false) => .error .ldapError
  | _ => .error .unexpectedResponse

theorem opStep_eq : opStep = fun (_ : Unit) m => .fin (opRes m) := by
  funext u m
  obtain ⟨c, r⟩ := m
  cases r with
  | result ok => cases ok <;> rfl
  | _ => rfl

/-- a root DSE read sends one message -/
theorem readDse_sent {s s' : Tls.Sock} {inc : List (List Msg)} {d : Chan × Dse} (h : s.readDse inc = (some (.ok d), s')) :
    s'.sent = s.sent ++ [⟨s.chan, s.nextId, .rootDse⟩] ∧ s'.nextId = s.nextId + 1 ∧ s'.chan = s.chan ∧ s'.startedTls = s.startedTls ∧ s'.host = s.host := by
  unfold Tls.Sock.readDse at h
  split at h
  · cases h
  · split at h
    · cases h
    · rename_i e
      obtain ⟨_, rfl, _⟩ := send_ok e
      obtain ⟨q, rfl⟩ := recv_fields h
      exact ⟨rfl, rfl, rfl, rfl, rfl⟩

/-- `s` after a request was sent on it -/
def sentSock (s : Tls.Sock) (r : Req) : Tls.Sock := { s with nextId := s.nextId + 1, sent := s.sent ++ [⟨s.chan, s.nextId, r⟩] }

theorem extended_ok {s s' : Tls.Sock} {dse : Dse} {oid : Str} {inc : List (List Msg)} {a : Chan × Str} (h : s.extended dse oid inc = (some (.ok a), s')) :
    oid ∈ dse.exts ∧ (∃ q, s' = { sentSock s (.ext oid) with queues := q }) ∧ (∃ c r, Answer s s.nextId inc c r ∧ extRes (c, r) = .ok a) := by
  unfold Tls.Sock.extended at h
  split at h
  · rename_i hm
    split at h
    · cases h
    · rename_i e
      obtain ⟨rfl, rfl, _⟩ := send_ok e
      refine ⟨hm, recv_fields h, ?_⟩
      rw [extStep_eq] at h
      exact recv_answer_inv extRes (sentSock s (.ext oid)) _ _ _ _ h
  · cases h

theorem ldapStartTls_ok {pki : Pki} {s s' : Tls.Sock} {dse : Dse} {verify : Bool} {cas : Cas} {peer : Except Err Cert} {inc1 inc2 : List (List Msg)} {d : Chan × Dse}
    (h : s.ldapStartTls pki dse verify cas peer inc1 inc2 = (some (.ok d), s')) :
    s.startedTls = false ∧ oidStartTls ∈ dse.exts ∧ (∃ c r v, Answer s s.nextId inc1 c r ∧ extRes (c, r) = .ok v) ∧
    s'.startedTls = true ∧ (∃ cert, peer = .ok cert ∧ s'.chan = .tls verify cas cert) ∧ SecureChan pki s.host verify cas s'.chan ∧
    s'.sent = s.sent ++ [⟨s.chan, s.nextId, .ext oidStartTls⟩, ⟨s'.chan, s.nextId + 1, .rootDse⟩] ∧ s'.nextId = s.nextId + 2 := by
  unfold Tls.Sock.ldapStartTls at h
  split at h
  · cases h
  · rename_i hst
    split at h
    · cases h
    · cases h
    · rename_i s1 e
      obtain ⟨h1, ⟨q, rfl⟩, c, r, h3, h4⟩ := extended_ok e
      split at h
      · cases h
      · rename_i e2
        obtain ⟨_, g2, ⟨cert, g3, g3'⟩, g4, _⟩ := startTls_ok e2
        obtain ⟨_, _, f3, f4, _, f6, _⟩ := UriP.startTls_fields e2
        obtain ⟨r1, r2, r3, r4, r5⟩ := readDse_sent h
        refine ⟨by simpa using hst, h1, ⟨c, r, _, h3, h4⟩, r4.trans g2, ⟨cert, g3, r3.trans g3'⟩, ?_, ?_, ?_⟩
        · rw [r3]; exact g4
        · rw [r1, f4, r3, f6]
          simp [sentSock]
        · rw [r2, f6]; simp [sentSock]

end TlsP

/-! ## C71 -/

/-- **C71.** `start_tls()` that returns has: asked the server, which was known to support it; got an answer to that request; installed a TLS layer with the settings asked for (by default the connection's), where the peer's certificate is trusted and accepted for
the host unless verification is off; and sent exactly two messages, the StartTLS request on the old channel and the new root DSE query through TLS. -/
theorem c71_started (pki : Pki) (st st' : Tls.St) (i : Nat) (verify : Option Bool) (cas : Cas) (peer : Except Err Cert) (inc1 inc2 : List (List Msg)) (c : Tls.Inst) (s : Tls.Sock)
    (hc : st.insts[i]? = some c) (hs : st.socks[c.sock]? = some s) (h : st.startTls pki i verify cas peer inc1 inc2 = (.ok, st')) :
    ∃ s', st'.socks = st.socks.set c.sock s' ∧ s.startedTls = false ∧ oidStartTls ∈ c.dse.2.exts ∧
      (∃ ch r, Answer s s.nextId inc1 ch r ∧ ((∃ v, r = .ext true v) ∨ ∃ v, r = .inter v)) ∧
      s'.startedTls = true ∧ SecureChan pki s.host (verify.getD c.verify) ⟨cas.file.or c.cas.file, cas.path.or c.cas.path, cas.data.or c.cas.data⟩ s'.chan ∧
      s'.sent = s.sent ++ [⟨s.chan, s.nextId, .ext oidStartTls⟩, ⟨s'.chan, s.nextId + 1, .rootDse⟩] ∧
      ∃ d, st'.insts = st.insts.set i { c with dse := d } := by
  unfold Tls.St.startTls at h
  rw [hc] at h
  simp only [hs] at h
  split at h
  · cases h
  · cases h
  · rename_i d s' e
    cases h
    obtain ⟨h1, h2, ⟨ch, r, v, h3, h4⟩, h5, h6, h7, h8, _⟩ := ldapStartTls_ok e
    refine ⟨s', rfl, h1, h2, ⟨ch, r, h3, ?_⟩, h5, h7, h8, d, rfl⟩
    cases r with
    | ext ok v =>
      cases ok with
      | true => exact .inl ⟨v, rfl⟩
      | false => cases h4
    | inter v => exact .inr ⟨v, rfl⟩
    | _ => cases h4

/-- **C71.** Asked a second time, or of a server that does not list StartTLS, `start_tls()` raises and nothing is sent or changed. -/
theorem c71_refused (pki : Pki) (st : Tls.St) (i : Nat) (verify : Option Bool) (cas : Cas) (peer : Except Err Cert) (inc1 inc2 : List (List Msg)) (c : Tls.Inst) (s : Tls.Sock)
    (hc : st.insts[i]? = some c) (hs : st.socks[c.sock]? = some s) :
    (s.startedTls = true → st.startTls pki i verify cas peer inc1 inc2 = (.err .ldapError, st)) ∧
    (s.startedTls = false → oidStartTls ∉ c.dse.2.exts → st.startTls pki i verify cas peer inc1 inc2 = (.err .ldapSupport, st)) := by
  have hset : st.setSock c.sock s = st := by
    unfold Tls.St.setSock
    have : st.socks.set c.sock s = st.socks := by
      apply List.ext_getElem?
      intro j
      rw [List.getElem?_set]
      by_cases hj : c.sock = j
      · subst hj; rw [if_pos rfl, hs, if_pos (List.getElem?_eq_some_iff.1 hs).1]
      · rw [if_neg hj]
    rw [this]
  unfold Tls.St.startTls
  rw [hc]
  simp only [hs]
  constructor
  · intro h; simp [Tls.Sock.ldapStartTls, h, hset]
  · intro h h2
    simp only [Tls.Sock.ldapStartTls, h, Bool.false_eq_true, if_false, Tls.Sock.extended, if_neg h2, hset]

/-- **C71.** If the server's answer to the StartTLS request is a refusal, `start_tls()` raises `LDAPError`; only the request was sent, and the channel stays as it was. -/
theorem c71_denied (pki : Pki) (st : Tls.St) (i : Nat) (verify : Option Bool) (cas : Cas) (peer : Except Err Cert) (inc1 inc2 : List (List Msg)) (c : Tls.Inst) (s : Tls.Sock)
    (hc : st.insts[i]? = some c) (hs : st.socks[c.sock]? = some s) (hn : s.startedTls = false) (hx : oidStartTls ∈ c.dse.2.exts)
    (hid : s.nextId ≤ Conn.maxInt) (hu : s.unbound = false) (hd : s.chan ≠ .dead) (ch : Chan) (v : Option Str) (ha : Answer s s.nextId inc1 ch (.ext false v)) :
    ∃ s', st.startTls pki i verify cas peer inc1 inc2 = (.err .ldapError, st.setSock c.sock s') ∧ s'.chan = s.chan ∧ s'.startedTls = false ∧
      s'.sent = s.sent ++ [⟨s.chan, s.nextId, .ext oidStartTls⟩] := by
  have he : ∃ q, s.extended c.dse.2 oidStartTls inc1 = (some (.error .ldapError), { sentSock s (.ext oidStartTls) with queues := q }) := by
    unfold Tls.Sock.extended
    rw [if_pos hx, send_alive _ hid hu hd]
    simp only
    cases hr : Tls.Sock.recv extStep () (sentSock s (.ext oidStartTls)) s.nextId inc1 with
    | mk a s' =>
      obtain ⟨q, rfl⟩ := recv_fields hr
      refine ⟨q, ?_⟩
      have := recv_answer extRes (sentSock s (.ext oidStartTls)) s.nextId inc1 ch (.ext false v) ha
      rw [← extStep_eq, hr] at this
      simp only at this
      subst this
      exact hr
  obtain ⟨q, he⟩ := he
  refine ⟨{ sentSock s (.ext oidStartTls) with queues := q }, ?_, rfl, hn, rfl⟩
  unfold Tls.St.startTls
  rw [hc]
  simp only [hs, Tls.Sock.ldapStartTls, hn, Bool.false_eq_true, if_false, he]

/-- **C71.** Once TLS is started on a socket, in every later history its channel stays and everything sent on it goes through that channel. -/
theorem c71_stays (unq : Str → Str) (pki : Pki) (net : Net) (st : Tls.St) (k : Nat) (s : Tls.Sock) (hs : st.socks[k]? = some s) (ht : s.startedTls = true) (es : List Tls.Ev) :
    ∃ s' new, (st.run unq pki net es).socks[k]? = some s' ∧ s'.chan = s.chan ∧ s'.sent = s.sent ++ new ∧ ∀ m ∈ new, m.chan = s.chan := by
  obtain ⟨s', h, e⟩ := (evoAll_run unq pki net st es).old k s hs
  obtain ⟨new, h1, h2, _⟩ := e.sent
  exact ⟨s', new, h, (e.started ht).2, h1, h2 ht⟩

/-- **C71.** There is no way back to plain text: once a handshake was tried on a socket – successful or not – nothing is sent on it in plain text, in every later history; after a failed handshake nothing is sent at all. -/
theorem c71_no_way_back (unq : Str → Str) (pki : Pki) (net : Net) (st : Tls.St) (k : Nat) (s : Tls.Sock) (hs : st.socks[k]? = some s) (ht : s.chan ≠ .plain) (es : List Tls.Ev) :
    ∃ s' new, (st.run unq pki net es).socks[k]? = some s' ∧ s'.sent = s.sent ++ new ∧ (∀ m ∈ new, m.chan ≠ .plain) ∧ (s.chan = .dead → new = []) := by
  obtain ⟨s', h, e⟩ := (evoAll_run unq pki net st es).old k s hs
  obtain ⟨new, h1, _, h2⟩ := e.sent
  refine ⟨s', new, h, h1, h2 ht, ?_⟩
  intro hd
  have := (e.dead hd).2
  rw [h1] at this
  simpa using this

/-- **C71.** Whatever the reason, a handshake that fails (including a certificate that is not trusted) leaves the socket closed, not in plain text. -/
theorem c71_handshake_fails (pki : Pki) (s s' : Tls.Sock) (verify : Bool) (cas : Cas) (peer : Except Err Cert) (e : Err) (hl : cas.any = true → pki.load cas = .ok ())
    (hn : s.startedTls = false) (hu : s.unbound = false) (hbad : (∃ e, peer = .error e) ∨ ∃ cert, peer = .ok cert ∧ verify = true ∧ pki.trusted cas cert = false)
    (h : s.startTls pki verify cas peer = (.error e, s')) : s'.chan = .dead ∧ s'.startedTls = false := by
  have hload : (if cas.any then pki.load cas else .ok ()) = .ok () := by
    split
    · rename_i h; exact hl h
    · rfl
  unfold Tls.Sock.startTls at h
  rw [if_neg (by simp [hn])] at h
  unfold wrap at h
  rw [hload] at h
  simp only at h
  split at h
  · rename_i e1
    split at e1
    · rename_i hd
      cases e1; cases h
      refine ⟨?_, hn⟩
      rcases hd with q | q
      · rw [hu] at q; cases q
      · exact q
    · split at e1
      · cases e1; cases h; exact ⟨rfl, hn⟩
      · split at e1
        · cases e1; cases h; exact ⟨rfl, hn⟩
        · cases e1
  · rename_i e1
    exfalso
    split at e1
    · cases e1
    · split at e1
      · cases e1
      · rename_i cert _
        split at e1
        · cases e1
        · rename_i hv
          rcases hbad with ⟨e', he'⟩ | ⟨cert', h1, h2, h3⟩
          · cases he'
          · cases h1
            simp [h2, h3] at hv

/-! ### where answers come from -/

namespace TlsP

/-- every queued answer to a request not yet made was read from the present channel -/
def Clean (s : Tls.Sock) : Prop := ∀ id, s.nextId ≤ id → ∀ m ∈ (s.queues.get? id).getD [], m.1 = s.chan

/-- every queued answer for an id was read from `ch` -/
def CleanQ (n : Nat) (ch : Chan) (q : PDict Nat (List (Chan × Resp))) : Prop := ∀ id, n ≤ id → ∀ m ∈ (q.get? id).getD [], m.1 = ch

theorem cleanQ_push {n : Nat} {ch : Chan} {q : PDict Nat (List (Chan × Resp))} (h : CleanQ n ch q) (id : Nat) (r : Resp) : CleanQ n ch (pushQ q id (ch, r)) := by
  intro j hj m hm
  unfold pushQ at hm
  rw [PDict.get?_set] at hm
  split at hm
  · rename_i e
    subst e
    simp only [Option.getD_some, List.mem_append, List.mem_singleton] at hm
    rcases hm with hm | rfl
    · exact h _ hj m hm
    · rfl
  · exact h j hj m hm

/-- what a consumer makes of messages that all came from `ch` -/
structure Origin {σ α : Type} (step : σ → Chan × Resp → Step σ α) (ch : Chan) (I : σ → Prop) (R : α → Prop) : Prop where
  more : ∀ st r st', I st → step st (ch, r) = .more st' → I st'
  fin : ∀ st r a, I st → step st (ch, r) = .fin (.ok a) → R a

theorem drain_origin {σ α : Type} {step : σ → Chan × Resp → Step σ α} {ch : Chan} {I : σ → Prop} {R : α → Prop} (ho : Origin step ch I R) (q : List (Chan × Resp)) (hq : ∀ m ∈ q, m.1 = ch) (st : σ) (hi : I st) :
    (∀ m ∈ (drain step q st).2, m ∈ q) ∧ (∀ st', (drain step q st).1 = .more st' → I st') ∧ ∀ a, (drain step q st).1 = .fin (.ok a) → R a := by
  induction q generalizing st with
  | nil => simp only [drain]; exact ⟨by simp, fun st' h => by cases h; exact hi, nofun⟩
  | cons m q ih =>
    obtain ⟨c, r⟩ := m
    have hc : c = ch := hq (c, r) (by simp)
    subst hc
    simp only [drain]
    cases hs : step st (c, r) with
    | more st' =>
      simp only
      obtain ⟨h1, h2, h3⟩ := ih (fun m hm => hq m (by simp [hm])) st' (ho.more st r st' hi hs)
      exact ⟨fun m hm => by simp [h1 m hm], h2, h3⟩
    | fin x =>
      simp only
      refine ⟨fun m hm => by simp [hm], nofun, ?_⟩
      intro a ha
      cases ha
      exact ho.fin st r a hi hs

theorem readChunk_origin {σ α : Type} {step : σ → Chan × Resp → Step σ α} {ch : Chan} {I : σ → Prop} {R : α → Prop} (ho : Origin step ch I R) (mid n : Nat) (ms : List Msg) (st : σ) (hi : I st)
    (q : PDict Nat (List (Chan × Resp))) (hq : CleanQ n ch q) :
    CleanQ n ch (readChunk step mid ch ms st q).2 ∧ (∀ st', (readChunk step mid ch ms st q).1 = .more st' → I st') ∧ ∀ a, (readChunk step mid ch ms st q).1 = .fin (.ok a) → R a := by
  induction ms generalizing st q with
  | nil => simp only [readChunk]; exact ⟨hq, fun st' h => by cases h; exact hi, nofun⟩
  | cons m ms ih =>
    simp only [readChunk]
    split
    · cases hs : step st (ch, m.resp) with
      | more st' => exact ih st' (ho.more st _ st' hi hs) q hq
      | fin x =>
        refine ⟨hq, nofun, ?_⟩
        intro a ha
        cases ha
        exact ho.fin st _ a hi hs
    · split
      · exact ⟨hq, nofun, nofun⟩
      · exact ih st hi _ (cleanQ_push hq _ _)

theorem readChunks_origin {σ α : Type} {step : σ → Chan × Resp → Step σ α} {ch : Chan} {I : σ → Prop} {R : α → Prop} (ho : Origin step ch I R) (mid n : Nat) (inc : List (List Msg)) (st : σ) (hi : I st)
    (q : PDict Nat (List (Chan × Resp))) (hq : CleanQ n ch q) :
    CleanQ n ch (readChunks step mid ch inc st q).2 ∧ ∀ a, (readChunks step mid ch inc st q).1 = some (.ok a) → R a := by
  induction inc generalizing st q with
  | nil => exact ⟨hq, nofun⟩
  | cons c cs ih =>
    simp only [readChunks]
    obtain ⟨h1, h2, h3⟩ := readChunk_origin ho mid n c st hi q hq
    cases hr : readChunk step mid ch c st q with
    | mk a q' =>
      rw [hr] at h1 h2 h3
      cases a with
      | fin r =>
        refine ⟨h1, ?_⟩
        intro a ha
        cases ha
        exact h3 a rfl
      | more st' => exact ih st' (h2 st' rfl) q' h1

theorem recv_origin {σ α : Type} {step : σ → Chan × Resp → Step σ α} {I : σ → Prop} {R : α → Prop} {s s' : Tls.Sock} {ch : Chan} (hch : s.chan = ch) (ho : Origin step ch I R) {init : σ} (hi : I init) {mid : Nat} (hlt : mid < s.nextId) {inc : List (List Msg)}
    {x : Option (Except Err α)} (h : s.recv step init mid inc = (x, s')) (hc : Clean s) (hm : ∀ m ∈ (s.queues.get? mid).getD [], m.1 = s.chan) :
    Clean s' ∧ ∀ a, x = some (.ok a) → R a := by
  subst hch
  obtain ⟨d1, d2, d3⟩ := drain_origin ho _ hm init hi
  unfold Tls.Sock.recv at h
  have her : CleanQ s.nextId s.chan (s.queues.erase mid) := by
    intro j hj m hm
    rw [PDict.get?_erase_ne _ _ _ (by omega)] at hm
    exact hc j hj m hm
  split at h
  · rename_i r rest e
    rw [e] at d1 d3
    cases h
    refine ⟨?_, ?_⟩
    · show CleanQ s.nextId s.chan _
      simp only
      split
      · exact her
      · intro j hj m hm'
        rw [PDict.get?_set] at hm'
        split at hm'
        · simp only [Option.getD_some] at hm'
          exact hm m (d1 m hm')
        · exact hc j hj m hm'
    · intro a ha
      cases ha
      exact d3 a rfl
  · rename_i st rest e
    rw [e] at d2
    simp only at h
    split at h
    · cases h
      exact ⟨her, nofun⟩
    · cases h
      exact readChunks_origin ho mid s.nextId inc st (d2 st rfl) _ her

theorem origin_ext (ch : Chan) : Origin extStep ch (fun _ => True) (fun a => a.1 = ch) := by
  constructor
  · intros; trivial
  · intro st r a _ h
    rw [extStep_eq] at h
    cases r with
    | ext ok v => cases ok <;> simp [extRes] at h; rw [← h]
    | inter v => simp [extRes] at h; rw [← h]
    | _ => simp [extRes] at h

theorem origin_op (ch : Chan) : Origin opStep ch (fun _ => True) (fun a => a.1 = ch) := by
  constructor
  · intros; trivial
  · intro st r a _ h
    rw [opStep_eq] at h
    cases r with
    | result ok => cases ok <;> simp [opRes] at h; rw [← h]
    | _ => simp [opRes] at h

theorem origin_dse (ch : Chan) : Origin dseStep ch (fun acc => ∀ p ∈ acc, p.1 = ch) (fun a => a.1 = ch) := by
  constructor
  · intro acc r acc' hi h
    cases r with
    | entry d =>
      simp only [dseStep, Step.more.injEq] at h
      subst h
      intro p hp
      rcases List.mem_append.1 hp with hp | hp
      · exact hi p hp
      · have : p = (ch, d) := by simpa using hp
        rw [this]
    | done ok => cases ok <;> simp [dseStep] at h
    | _ => simp [dseStep] at h
  · intro acc r a hi h
    cases r with
    | done ok =>
      cases ok with
      | false => simp [dseStep] at h
      | true =>
        simp only [dseStep, Step.fin.injEq] at h
        split at h
        · cases h
        · rename_i x
          cases h
          exact hi a (by simp)
        · cases h
    | _ => simp [dseStep] at h

theorem clean_send {s s' : Tls.Sock} {r : Req} {x : Except Err Nat} (h : s.send r = (x, s')) (hc : Clean s) : Clean s' ∧ (∀ mid, x = .ok mid → ∀ m ∈ (s'.queues.get? mid).getD [], m.1 = s'.chan) := by
  have : s'.queues = s.queues ∧ s'.chan = s.chan ∧ s'.nextId = s.nextId + 1 := by
    unfold Tls.Sock.send at h
    split at h
    · cases h; exact ⟨rfl, rfl, rfl⟩
    · split at h <;> (cases h; exact ⟨rfl, rfl, rfl⟩)
  obtain ⟨h1, h2, h3⟩ := this
  refine ⟨?_, ?_⟩
  · intro id hid m hm
    rw [h1] at hm
    rw [h2]
    exact hc id (by omega) m hm
  · intro mid hmid m hm
    subst hmid
    obtain ⟨rfl, _⟩ := send_ok h
    rw [h1] at hm
    rw [h2]
    exact hc _ (Nat.le_refl _) m hm

theorem clean_readDse {s s' : Tls.Sock} {inc : List (List Msg)} {x : Option (Except Err (Chan × Dse))} (h : s.readDse inc = (x, s')) (hc : Clean s) : Clean s' ∧ ∀ d, x = some (.ok d) → d.1 = s.chan := by
  unfold Tls.Sock.readDse at h
  split at h
  · cases h; exact ⟨hc, nofun⟩
  · split at h
    · rename_i e; cases h; exact ⟨(clean_send e hc).1, nofun⟩
    · rename_i s1 e
      obtain ⟨rfl, rfl, _⟩ := send_ok e
      exact recv_origin (s := sentSock s .rootDse) rfl (origin_dse s.chan) (fun _ h => absurd h List.not_mem_nil) (Nat.lt_succ_self _) h (clean_send e hc).1 ((clean_send e hc).2 _ rfl)

theorem clean_extended {s s' : Tls.Sock} {dse : Dse} {oid : Str} {inc : List (List Msg)} {x : Option (Except Err (Chan × Str))} (h : s.extended dse oid inc = (x, s')) (hc : Clean s) :
    Clean s' ∧ ∀ d, x = some (.ok d) → d.1 = s.chan := by
  unfold Tls.Sock.extended at h
  split at h
  · split at h
    · rename_i e; cases h; exact ⟨(clean_send e hc).1, nofun⟩
    · rename_i s1 e
      obtain ⟨rfl, rfl, _⟩ := send_ok e
      exact recv_origin (s := sentSock s (.ext oid)) rfl (origin_ext s.chan) trivial (Nat.lt_succ_self _) h (clean_send e hc).1 ((clean_send e hc).2 _ rfl)
  · cases h; exact ⟨hc, nofun⟩

/-- after a call every clean, TLS-started socket is still clean -/
theorem clean_step (unq : Str → Str) (pki : Pki) (net : Net) (st : Tls.St) (e : Tls.Ev) (k : Nat) (s : Tls.Sock) (hs : st.socks[k]? = some s) (ht : s.startedTls = true) (hc : Clean s) :
    ∃ s', (st.step unq pki net e).2.socks[k]? = some s' ∧ s'.startedTls = true ∧ s'.chan = s.chan ∧ Clean s' := by
  have keep : ∃ s', st.socks[k]? = some s' ∧ s'.startedTls = true ∧ s'.chan = s.chan ∧ Clean s' := ⟨s, hs, ht, rfl, hc⟩
  have upd : ∀ (socks : List Tls.Sock) (j : Nat) (t t' : Tls.Sock), socks[k]? = some s → socks[j]? = some t → (t = s → t'.startedTls = true ∧ t'.chan = s.chan ∧ Clean t') →
      ∃ s', (socks.set j t')[k]? = some s' ∧ s'.startedTls = true ∧ s'.chan = s.chan ∧ Clean s' := by
    intro socks j t t' hk hj h
    rw [List.getElem?_set]
    by_cases hjk : j = k
    · subst hjk
      rw [if_pos rfl, if_pos (List.getElem?_eq_some_iff.1 hj).1]
      rw [hk] at hj; cases hj
      exact ⟨t', rfl, h rfl⟩
    · rw [if_neg hjk]; exact ⟨s, hk, ht, rfl, hc⟩
  have att : ∀ (st1 : Tls.St) (j : Nat) (v : Bool) (cas : Cas) (inc : List (List Msg)), st1.socks[k]? = some s →
      ∃ s', (st1.attach j v cas inc).2.socks[k]? = some s' ∧ s'.startedTls = true ∧ s'.chan = s.chan ∧ Clean s' := by
    intro st1 j v cas inc h1
    unfold Tls.St.attach
    split
    · exact ⟨s, h1, ht, rfl, hc⟩
    · rename_i t htj
      split
      all_goals
        (rename_i e
         refine upd st1.socks j t _ h1 htj ?_
         rintro rfl
         have ev := evo_readDse (pki := pki) e
         exact ⟨(ev.started ht).1, (ev.started ht).2, (clean_readDse e (by exact hc)).1⟩)
  cases e with
  | connect u reuse verify cas peer inc =>
    simp only [Tls.St.step, Tls.St.connect]
    split
    · exact att st _ _ _ _ hs
    · split
      · exact keep
      · refine att _ _ _ _ _ ?_
        show (st.socks ++ [_])[k]? = some s
        rw [List.getElem?_append_left (List.getElem?_eq_some_iff.1 hs).1]; exact hs
  | startTls i verify cas peer inc1 inc2 =>
    simp only [Tls.St.step, Tls.St.startTls]
    split
    · exact keep
    · split
      · exact keep
      · rename_i t htj
        split
        all_goals
          (rename_i e
           refine upd st.socks _ t _ hs htj ?_
           rintro rfl
           simp only [Tls.Sock.ldapStartTls, ht, if_true, Prod.mk.injEq] at e
           obtain ⟨_, rfl⟩ := e
           exact ⟨ht, rfl, hc⟩)
  | whoAmI i inc =>
    simp only [Tls.St.step, Tls.St.whoAmI]
    split
    · exact keep
    · split
      · exact keep
      · rename_i t htj
        split
        all_goals
          (rename_i e
           refine upd st.socks _ t _ hs htj ?_
           rintro rfl
           have ev := evo_extended (pki := pki) e
           exact ⟨(ev.started ht).1, (ev.started ht).2, (clean_extended e hc).1⟩)
  | operation i inc =>
    simp only [Tls.St.step, Tls.St.operation]
    split
    · exact keep
    · split
      · exact keep
      · rename_i t htj
        split
        · exact keep
        · split
          · rename_i e
            refine upd st.socks _ t _ hs htj ?_
            rintro rfl
            have ev := evo_send (pki := pki) e
            exact ⟨(ev.started ht).1, (ev.started ht).2, (clean_send e hc).1⟩
          · rename_i s1 e
            split
            all_goals
              (rename_i e2
               refine upd st.socks _ t _ hs htj ?_
               rintro rfl
               have ev := (evo_send (pki := pki) e).trans (evo_recv e2)
               obtain ⟨rfl, rfl, _⟩ := send_ok e
               exact ⟨(ev.started ht).1, (ev.started ht).2, (recv_origin (s := sentSock t .op) rfl (origin_op t.chan) trivial (Nat.lt_succ_self _) e2 (clean_send e hc).1 ((clean_send e hc).2 _ rfl)).1⟩)
  | unbind i force =>
    simp only [Tls.St.step, Tls.St.unbind]
    split
    · exact keep
    · split
      · exact keep
      · rename_i t htj
        split
        · exact keep
        · split
          · split
            · rename_i e
              refine upd st.socks _ t _ hs htj ?_
              rintro rfl
              have ev := evo_send (pki := pki) e
              exact ⟨(ev.started ht).1, (ev.started ht).2, (clean_send e (by exact hc)).1⟩
            · rename_i e
              refine upd st.socks _ t _ hs htj ?_
              rintro rfl
              have ev := evo_send (pki := pki) e
              exact ⟨(ev.started ht).1, (ev.started ht).2, (clean_send e (by exact hc)).1⟩
          · refine upd st.socks _ t _ hs htj ?_
            rintro rfl
            exact ⟨ht, rfl, hc⟩

theorem clean_run (unq : Str → Str) (pki : Pki) (net : Net) (st : Tls.St) (es : List Tls.Ev) (k : Nat) (s : Tls.Sock) (hs : st.socks[k]? = some s) (ht : s.startedTls = true) (hc : Clean s) :
    ∃ s', (st.run unq pki net es).socks[k]? = some s' ∧ s'.startedTls = true ∧ s'.chan = s.chan ∧ Clean s' := by
  induction es generalizing st s with
  | nil => exact ⟨s, hs, ht, rfl, hc⟩
  | cons e es ih =>
    obtain ⟨s1, h1, h2, h3, h4⟩ := clean_step unq pki net st e k s hs ht hc
    obtain ⟨s2, g1, g2, g3, g4⟩ := ih _ s1 h1 h2 h4
    exact ⟨s2, g1, g2, g3.trans h3, g4⟩

/-- nothing is queued for ids above `n` -/
def EmptyQ (n : Nat) (q : PDict Nat (List (Chan × Resp))) : Prop := ∀ id, n < id → (q.get? id).getD [] = []

theorem readChunk_empty {σ α : Type} (step : σ → Chan × Resp → Step σ α) (mid n : Nat) (ch : Chan) (ms : List Msg) (hm : ∀ m ∈ ms, m.mid ≤ n) (st : σ) (q : PDict Nat (List (Chan × Resp))) (hq : EmptyQ n q) :
    EmptyQ n (readChunk step mid ch ms st q).2 := by
  induction ms generalizing st q with
  | nil => exact hq
  | cons m ms ih =>
    have ht : ∀ m ∈ ms, m.mid ≤ n := fun x hx => hm x (by simp [hx])
    simp only [readChunk]
    split
    · cases step st (ch, m.resp) with
      | more st' => exact ih ht st' q hq
      | fin x => exact hq
    · split
      · exact hq
      · refine ih ht st _ ?_
        intro j hj
        have := hm m (by simp)
        unfold pushQ
        rw [PDict.get?_set, if_neg (by omega)]
        exact hq j hj

theorem readChunks_empty {σ α : Type} (step : σ → Chan × Resp → Step σ α) (mid n : Nat) (ch : Chan) (inc : List (List Msg)) (hm : ∀ c ∈ inc, ∀ m ∈ c, m.mid ≤ n) (st : σ) (q : PDict Nat (List (Chan × Resp)))
    (hq : EmptyQ n q) : EmptyQ n (readChunks step mid ch inc st q).2 := by
  induction inc generalizing st q with
  | nil => exact hq
  | cons c cs ih =>
    simp only [readChunks]
    have h := readChunk_empty step mid n ch c (hm c (by simp)) st q hq
    cases hr : readChunk step mid ch c st q with
    | mk a q' =>
      rw [hr] at h
      cases a with
      | fin r => exact h
      | more st' => exact ih (fun c hc => hm c (by simp [hc])) st' q' h

theorem recv_empty {σ α : Type} {step : σ → Chan × Resp → Step σ α} {init : σ} {s s' : Tls.Sock} {mid n : Nat} (hlt : mid ≤ n) {inc : List (List Msg)} {x : Option (Except Err α)}
    (h : s.recv step init mid inc = (x, s')) (hm : ∀ c ∈ inc, ∀ m ∈ c, m.mid ≤ n) (hq : EmptyQ n s.queues) : EmptyQ n s'.queues := by
  have her : EmptyQ n (s.queues.erase mid) := by
    intro j hj
    rw [PDict.get?_erase_ne _ _ _ (by omega)]
    exact hq j hj
  unfold Tls.Sock.recv at h
  split at h
  · cases h
    simp only
    split
    · exact her
    · intro j hj
      rw [PDict.get?_set, if_neg (by omega)]
      exact hq j hj
  · simp only at h
    split at h
    · cases h; exact her
    · cases h
      exact readChunks_empty step mid n s.chan inc hm _ _ her

end TlsP

/-- **C71, where answers come from (partial: see `c71_forged_dse`).** If no answer to a request not yet made was queued or arrives before the answer to the StartTLS request, then the root DSE read by `start_tls()` came through TLS, and so does, in every
later history, every answer to an operation on that socket. -/
theorem c71_authentic_partial (unq : Str → Str) (pki : Pki) (net : Net) (st st' : Tls.St) (i : Nat) (verify : Option Bool) (cas : Cas) (peer : Except Err Cert) (inc1 inc2 : List (List Msg)) (c : Tls.Inst)
    (s : Tls.Sock) (hc : st.insts[i]? = some c) (hs : st.socks[c.sock]? = some s) (h : st.startTls pki i verify cas peer inc1 inc2 = (.ok, st'))
    (hq : ∀ id, s.nextId < id → s.queues.get? id = none) (hinc : ∀ chunk ∈ inc1, ∀ m ∈ chunk, m.mid ≤ s.nextId) :
    ∃ s', st'.socks[c.sock]? = some s' ∧ (∃ v ca cert, s'.chan = .tls v ca cert) ∧ (∃ c', st'.insts[i]? = some c' ∧ c'.dse.1 = s'.chan) ∧
      ∀ es j cj inc ch v, (st'.run unq pki net es).insts[j]? = some cj → cj.sock = c.sock →
        (((st'.run unq pki net es).whoAmI j inc).1 = .value ch v ∨ ((st'.run unq pki net es).operation j inc).1 = .value ch v) → ch = s'.chan := by
  have hk : c.sock < st.socks.length := (List.getElem?_eq_some_iff.1 hs).1
  have hi : i < st.insts.length := (List.getElem?_eq_some_iff.1 hc).1
  unfold Tls.St.startTls at h
  rw [hc] at h
  simp only [hs] at h
  split at h
  · cases h
  · cases h
  · rename_i d s' e
    cases h
    obtain ⟨_, _, _, h5, ⟨cert, _, h6⟩, _⟩ := ldapStartTls_ok e
    have key : Clean s' ∧ d.1 = s'.chan := by
      unfold Tls.Sock.ldapStartTls at e
      split at e
      · cases e
      · split at e
        · cases e
        · cases e
        · rename_i s1 e1
          have hemp : EmptyQ s.nextId s1.queues := by
            have hm := (extended_ok e1).1
            unfold Tls.Sock.extended at e1
            rw [if_pos hm] at e1
            split at e1
            · cases e1
            · rename_i e0
              obtain ⟨rfl, rfl, _⟩ := send_ok e0
              refine recv_empty (s := sentSock s (.ext oidStartTls)) (Nat.le_refl _) e1 hinc ?_
              intro j hj
              show (s.queues.get? j).getD [] = []
              rw [hq j hj]; rfl
          have hid : s1.nextId = s.nextId + 1 := by
            obtain ⟨_, ⟨q, rfl⟩, _⟩ := extended_ok e1
            rfl
          split at e
          · cases e
          · rename_i s2 e2
            obtain ⟨_, _, _, _, f5, f6, _⟩ := UriP.startTls_fields e2
            have hcl : Clean s2 := by
              intro j hj m hm
              rw [f5, hemp j (by omega)] at hm
              exact absurd hm List.not_mem_nil
            have := clean_readDse e hcl
            refine ⟨this.1, ?_⟩
            rw [this.2 d rfl, (readDse_sent e).2.2.1]
    have hs' : (st.socks.set c.sock s')[c.sock]? = some s' := by rw [List.getElem?_set, if_pos rfl, if_pos hk]
    refine ⟨s', hs', ⟨_, _, cert, h6⟩, ⟨{ c with dse := d }, ?_, key.2⟩, ?_⟩
    · show (st.insts.set i _)[i]? = _
      rw [List.getElem?_set, if_pos rfl, if_pos hi]
    · intro es j cj inc ch v hj hcj hv
      obtain ⟨s2, g1, g2, g3, g4⟩ := clean_run unq pki net { st.setSock c.sock s' with insts := st.insts.set i { c with dse := d } } es c.sock s' hs' h5 key.1
      rw [← g3]
      rcases hv with hv | hv
      · unfold Tls.St.whoAmI at hv
        rw [hj] at hv
        simp only [hcj, g1] at hv
        split at hv
        · cases hv
        · cases hv
        · rename_i e
          cases hv
          exact (clean_extended e g4).2 _ rfl
      · unfold Tls.St.operation at hv
        rw [hj] at hv
        simp only [hcj, g1] at hv
        split at hv
        · cases hv
        · split at hv
          · cases hv
          · rename_i e
            obtain ⟨rfl, rfl, _⟩ := send_ok e
            split at hv
            · cases hv
            · cases hv
            · rename_i e2
              cases hv
              exact (recv_origin (s := sentSock s2 .op) rfl (origin_op s2.chan) trivial (Nat.lt_succ_self _) e2 (clean_send e g4).1 ((clean_send e g4).2 _ rfl)).2 _ rfl

/-! ### what is wrong -/

/-- a certificate for `db`, one for another host, and a world trusting both -/
def certDb : Cert := ⟨[(str "commonName", str "db")], []⟩
def certOther : Cert := ⟨[(str "commonName", str "other")], []⟩
def allTrusted : Pki := ⟨fun _ => .ok (), fun _ _ => true⟩
def nothingTrusted : Pki := ⟨fun _ => .ok (), fun _ _ => false⟩
def dseTls : Dse := ⟨[oidStartTls, oidWhoAmI], [str "EXTERNAL"]⟩
/-- connecting to `ldap://db` -/
def openDb : Tls.Ev := .connect (str "ldap://db") true true {} (.error .osError) [[⟨1, .entry dseTls⟩, ⟨1, .done true⟩]]

/-- the hypotheses of the theorems above are met: a StartTLS that succeeds and an operation after it -/
example : let st := ({} : Tls.St).run id allTrusted exNet [openDb]
    (st.startTls allTrusted 0 none {} (.ok certDb) [[⟨2, .ext true none⟩]] [[⟨3, .entry dseTls⟩, ⟨3, .done true⟩]]).1 = .ok ∧
    ((st.startTls allTrusted 0 none {} (.ok certDb) [[⟨2, .ext true none⟩]] [[⟨3, .entry dseTls⟩, ⟨3, .done true⟩]]).2.operation 0 [[⟨4, .result true⟩]]).1 = .value (.tls true {} certDb) [] := by
  refine ⟨?_, ?_⟩ <;> decide +kernel

/-- **C71 is false: answers given in plain text are accepted after StartTLS.** A peer on the path who adds messages before the StartTLS response supplies the root DSE that the client believes to have read through TLS: `start_tls()` succeeds with no
answer to the query sent through TLS having arrived, and the root DSE – extensions and SASL mechanisms – is the one sent in plain text. -/
theorem c71_forged_dse (forged : Dse) :
    let st := ({} : Tls.St).run id allTrusted exNet [openDb]
    let r := st.startTls allTrusted 0 none {} (.ok certDb) [[⟨3, .entry forged⟩, ⟨3, .done true⟩, ⟨2, .ext true none⟩]] []
    r.1 = .ok ∧ r.2.insts.map (·.dse) = [(.plain, forged)] ∧ r.2.socks.map (·.startedTls) = [true] := by
  refine ⟨?_, ?_, ?_⟩ <;> rfl

/-- **C71 is false: the server need not grant StartTLS.** An intermediate response counts as success. -/
theorem c71_intermediate_counts :
    let st := ({} : Tls.St).run id allTrusted exNet [openDb]
    (st.startTls allTrusted 0 none {} (.ok certDb) [[⟨2, .inter none⟩, ⟨2, .ext false none⟩]] [[⟨3, .entry dseTls⟩, ⟨3, .done true⟩]]).1 = .ok := by
  decide +kernel

/-- **C71 is false: a peer with another host's certificate stays connected.** `start_tls()` raises, but the connection remains in use: the next operation – a bind with its password, say – is sent to that peer and its answer accepted. -/
theorem c71_wrong_host_stays :
    let st := ({} : Tls.St).run id allTrusted exNet [openDb]
    let r := st.startTls allTrusted 0 (some true) {} (.ok certOther) [[⟨2, .ext true none⟩]] []
    r.1 = .err .connection ∧ ¬ NameAccepted (str "db") certOther ∧ (r.2.operation 0 [[⟨3, .result true⟩]]).1 = .value (.tls true {} certOther) [] := by
  refine ⟨by decide +kernel, ?_, by decide +kernel⟩
  rw [← verifyCert_iff]
  decide

/-- **C70 is false for shared sockets: `ssl_verify=True` is ignored** when another `LDAP` object opened the connection without verification: the second constructor succeeds although its own settings would refuse the certificate, and talks to the
unverified peer. -/
theorem c70_shared_unverified :
    let first : Tls.Ev := .connect (str "ldaps://db") true false {} (.ok certOther) [[⟨1, .entry dseTls⟩, ⟨1, .done true⟩]]
    let st := ({} : Tls.St).run id nothingTrusted exNet [first]
    let r := st.connect id nothingTrusted exNet (str "ldaps://db") true true {} (.ok certOther) [[⟨2, .entry dseTls⟩, ⟨2, .done true⟩]]
    r.1 = .ok ∧ r.2.insts.map (fun c => (c.sock, c.verify)) = [(0, false), (0, true)] ∧ r.2.socks.map (·.chan) = [.tls false {} certOther] ∧
      (st.connect id nothingTrusted exNet (str "ldaps://db") false true {} (.ok certOther) []).1 = .err .osError := by
  refine ⟨?_, ?_, ?_, ?_⟩ <;> decide +kernel

/-- **C70.** In general: reusing a socket takes it as it is, whatever TLS settings the new connection has. -/
theorem c70_reused (unq : Str → Str) (pki : Pki) (net : Net) (st : Tls.St) (u : Str) (k : Nat) (hk : st.table.get? u = some k) (v1 v2 : Bool) (c1 c2 : Cas) (p1 p2 : Except Err Cert) (inc : List (List Msg)) :
    (st.connect unq pki net u true v1 c1 p1 inc).1 = (st.connect unq pki net u true v2 c2 p2 inc).1 ∧
    (st.connect unq pki net u true v1 c1 p1 inc).2.socks = (st.connect unq pki net u true v2 c2 p2 inc).2.socks := by
  unfold Tls.St.connect
  simp only [if_true, hk]
  unfold Tls.St.attach
  split
  · exact ⟨rfl, rfl⟩
  · split <;> exact ⟨rfl, rfl⟩

/-! ## C73 -/

/-- **C73.** `who_am_i()`: refused without sending when the server does not list the operation; otherwise one request is sent, and its first answer decides: a success gives its value (empty if it has none), a failure raises `LDAPError`, anything that is not an
extended or intermediate response raises `UnexpectedResponseType`. -/
theorem c73_who_am_i (st : Tls.St) (i : Nat) (inc : List (List Msg)) (c : Tls.Inst) (s : Tls.Sock) (hc : st.insts[i]? = some c) (hs : st.socks[c.sock]? = some s) :
    (oidWhoAmI ∉ c.dse.2.exts → (st.whoAmI i inc).1 = .err .ldapSupport ∧ (st.whoAmI i inc).2.socks = st.socks) ∧
    (oidWhoAmI ∈ c.dse.2.exts → s.nextId ≤ Conn.maxInt → s.unbound = false → s.chan ≠ .dead →
      (∃ s', (st.whoAmI i inc).2.socks = st.socks.set c.sock s' ∧ s'.sent = s.sent ++ [⟨s.chan, s.nextId, .ext oidWhoAmI⟩] ∧ s'.nextId = s.nextId + 1) ∧
      ∀ ch r, Answer s s.nextId inc ch r →
        (∀ v, r = .ext true v → (st.whoAmI i inc).1 = .value ch (v.getD [])) ∧ (∀ v, r = .ext false v → (st.whoAmI i inc).1 = .err .ldapError) ∧
        (((∃ d, r = .entry d) ∨ (∃ b, r = .done b) ∨ (∃ b, r = .result b) ∨ r = .other) → (st.whoAmI i inc).1 = .err .unexpectedResponse)) := by
  have hset : st.socks.set c.sock s = st.socks := by
    apply List.ext_getElem?
    intro j
    rw [List.getElem?_set]
    by_cases hj : c.sock = j
    · subst hj; rw [if_pos rfl, hs, if_pos (List.getElem?_eq_some_iff.1 hs).1]
    · rw [if_neg hj]
  unfold Tls.St.whoAmI
  rw [hc]
  simp only [hs]
  constructor
  · intro hx
    simp only [Tls.Sock.extended, if_neg hx]
    exact ⟨trivial, hset⟩
  · intro hx hid hu hd
    cases hr : s.extended c.dse.2 oidWhoAmI inc with
    | mk x s' =>
      have hr' := hr
      unfold Tls.Sock.extended at hr
      rw [if_pos hx, send_alive _ hid hu hd] at hr
      simp only at hr
      obtain ⟨q, hq⟩ := recv_fields hr
      refine ⟨⟨s', ?_, by rw [hq], by rw [hq]⟩, ?_⟩
      · cases x with
        | none => rfl
        | some x =>
          cases x with
          | error e => rfl
          | ok a => rfl
      · intro ch r ha
        have hrec := recv_answer extRes (sentSock s (.ext oidWhoAmI)) s.nextId inc ch r ha
        rw [← extStep_eq] at hrec
        have hx' : x = some (extRes (ch, r)) := by
          rw [← hrec]
          show x = (Tls.Sock.recv extStep () (sentSock s (.ext oidWhoAmI)) s.nextId inc).1
          have : Tls.Sock.recv extStep () (sentSock s (.ext oidWhoAmI)) s.nextId inc = (x, s') := hr
          rw [this]
        subst hx'
        refine ⟨?_, ?_, ?_⟩
        · rintro v rfl; rfl
        · rintro v rfl; rfl
        · rintro (⟨d, rfl⟩ | ⟨b, rfl⟩ | ⟨b, rfl⟩ | rfl) <;> rfl

/-- **C73.** A value handed out by `who_am_i()` is the one in the answer to its own request. -/
theorem c73_value (st st' : Tls.St) (i : Nat) (inc : List (List Msg)) (c : Tls.Inst) (s : Tls.Sock) (hc : st.insts[i]? = some c) (hs : st.socks[c.sock]? = some s) (ch : Chan) (w : Str)
    (h : st.whoAmI i inc = (.value ch w, st')) :
    oidWhoAmI ∈ c.dse.2.exts ∧ ∃ v, w = v.getD [] ∧ (Answer s s.nextId inc ch (.ext true v) ∨ Answer s s.nextId inc ch (.inter v)) := by
  unfold Tls.St.whoAmI at h
  rw [hc] at h
  simp only [hs] at h
  split at h
  · cases h
  · cases h
  · rename_i e
    cases h
    obtain ⟨h1, _, ch', r, h2, h3⟩ := extended_ok e
    refine ⟨h1, ?_⟩
    cases r with
    | ext ok v =>
      cases ok with
      | true =>
        simp only [extRes, Except.ok.injEq, Prod.mk.injEq] at h3
        obtain ⟨rfl, rfl⟩ := h3
        exact ⟨v, rfl, .inl h2⟩
      | false => cases h3
    | inter v =>
      simp only [extRes, Except.ok.injEq, Prod.mk.injEq] at h3
      obtain ⟨rfl, rfl⟩ := h3
      exact ⟨v, rfl, .inr h2⟩
    | _ => cases h3

/-- **C73.** A message that was waiting for an operation is handed to it once: the messages up to the one that ends the operation are no longer waiting afterwards, those behind it still are, and nothing that waits
for another operation is touched. -/
theorem c73_taken_once {σ α : Type} (step : σ → Chan × Resp → Step σ α) (init : σ) (s : Tls.Sock) (mid : Nat) (inc : List (List Msg)) (done rest : List (Chan × Resp)) (m : Chan × Resp)
    (hq : s.queues.get? mid = some (done ++ m :: rest)) (st : σ) (hd : drain step done init = (.more st, [])) (r : Except Err α) (hm : step st m = .fin r)
    (hnd : s.queues.keys.Nodup) :
    ∃ s', s.recv step init mid inc = (some r, s') ∧ s'.queues.get? mid = (if rest = [] then none else some rest) ∧ ∀ k, k ≠ mid → s'.queues.get? k = s.queues.get? k := by
  have hd' : ∀ (q : List (Chan × Resp)) i, drain step q i = (.more st, []) → drain step (q ++ m :: rest) i = (.fin r, rest) := by
    intro q
    induction q with
    | nil => intro i h; simp only [drain, Prod.mk.injEq, Step.more.injEq, and_true] at h; subst h; simp [drain, hm]
    | cons a q ih =>
      intro i h
      simp only [drain, List.cons_append] at h ⊢
      split at h
      · exact ih _ h
      · cases h
  refine ⟨_, by unfold Tls.Sock.recv; rw [hq, Option.getD_some, hd' done init hd], ?_, ?_⟩
  · simp only
    by_cases hr : rest = []
    · rw [if_pos hr, if_pos hr, PDict.get?_erase_self _ _ hnd]
    · rw [if_neg hr, if_neg hr, PDict.get?_set]; simp
  · intro k hk
    simp only
    by_cases hr : rest = []
    · rw [if_pos hr, PDict.get?_erase_ne _ _ _ hk]
    · rw [if_neg hr, PDict.get?_set]; simp [hk]

/-- the hypotheses are met: the answer to the operation came early, with another message behind it -/
example : ∃ s', Tls.Sock.recv extStep () { scheme := str "ldap", uri := str "ldap://h", host := str "h", queues := [(2, [(.plain, .ext true none), (.plain, .result true)]), (3, [(.plain, .result true)])] } 2 []
      = (some (.ok (.plain, [])), s') ∧ s'.queues.get? 2 = some [(.plain, .result true)] ∧ s'.queues.get? 3 = some [(.plain, .result true)] :=
  ⟨_, rfl, rfl, rfl⟩

/-- **C26.** Reading the root DSE over a closed connection raises `ConnectionUnbound`; nothing is sent and no message id is used. -/
theorem c26_dse_closed (s : Tls.Sock) (inc : List (List Msg)) (h : s.unbound = true) : s.readDse inc = (some (.error .unbound), s) := by
  simp [Tls.Sock.readDse, h]

/-- **C73 is false: an intermediate response is taken for the answer**, even when the operation then fails. -/
theorem c73_intermediate : let st := ({} : Tls.St).run id allTrusted exNet [openDb]
    (st.whoAmI 0 [[⟨2, .inter (some (str "x"))⟩, ⟨2, .ext false none⟩]]).1 = .value .plain (str "x") := by
  decide +kernel

example : let st := ({} : Tls.St).run id allTrusted exNet [openDb]
    (st.whoAmI 0 [[⟨2, .ext true (some (str "dn:cn=a"))⟩]]).1 = .value .plain (str "dn:cn=a") := by
  decide +kernel

end Laurelin.Props
