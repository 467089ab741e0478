import Verif.Props.LoopNet
import Verif.Spec.Loop
/-!
Lemmas for C99: a call on a connection where whole messages of other requests wait to be received.
-/
set_option linter.unusedSectionVars false
namespace Laurelin.Props
open Laurelin Codec Asn1 Rfc4511 Spec
namespace LoopP
open Laurelin.Wire WireP WireR OverWire OverWireP Spec.OverWireS Spec.DirectoryS DirP Spec.LoopS
section
variable {V R S D : Type} {dir : Directory D} {contents : S → D} {peer : Peer S} (env : Api.Env V R)

/-- whole messages of earlier requests wait to be received, in these pieces, and nothing else does -/
structure Pend (gs : List (List Received.Decoded)) (st : Session.St Received.Decoded) : Prop where
  pos : 0 < st.next
  chunks : st.sock.chunks = gs.map (fun g => g.flatMap codec.enc)
  ids : ∀ g ∈ gs, ∀ d ∈ g, 0 < codec.mid d ∧ codec.mid d < st.next
  abandoned : st.sock.abandoned = []
  queues : ∀ j, st.next ≤ j → st.sock.queues j = none

theorem Pend.later {gs : List (List Received.Decoded)} {st : Session.St Received.Decoded} (h : Pend gs st) (n : Nat) (hn : st.next ≤ n) : Pend gs { st with next := n } :=
  ⟨Nat.lt_of_lt_of_le h.pos hn, h.chunks, fun g hg d hd => ⟨(h.ids g hg d hd).1, Nat.lt_of_lt_of_le (h.ids g hg d hd).2 hn⟩, h.abandoned, fun j hj => h.queues j (Nat.le_trans hn hj)⟩

theorem pend_ready {st : Session.St Received.Decoded} (h : SessionP.Ready st) : Pend [] st := ⟨h.1, h.2.1, nofun, h.2.2.1, h.2.2.2⟩

/-- the same connection with those messages in their queues -/
def settle (gs : List (List Received.Decoded)) (st : Session.St Received.Decoded) : Session.St Received.Decoded := { st with sock := setC [] (enqAll codec st.sock gs.flatten) }

theorem Pend.ready {gs : List (List Received.Decoded)} {st : Session.St Received.Decoded} (h : Pend gs st) : SessionP.Ready (settle gs st) := by
  obtain ⟨f1, _, f3⟩ := enqAll_facts codec gs.flatten st.sock
  refine ⟨h.pos, rfl, f1.trans h.abandoned, fun j hj => (f3 j ?_).trans (h.queues j hj)⟩
  intro d hd
  obtain ⟨g, hg, hdg⟩ := List.mem_flatten.1 hd
  have := (h.ids g hg d hdg).2
  have hj' : st.next ≤ j := hj
  omega

/-- what the next request receives is the same -/
theorem Pend.next {gs : List (List Received.Decoded)} {st : Session.St Received.Decoded} (h : Pend gs st) (cs : List Bytes) :
    Net.next codec st.next (.top []) { st.sock with chunks := st.sock.chunks ++ cs } = Net.next codec st.next (.top []) { (settle gs st).sock with chunks := (settle gs st).sock.chunks ++ cs } := by
  have := next_skip codec st.next st.sock gs cs (fun g hg d hd => ⟨by have := (h.ids g hg d hd).2; omega, by have := (h.ids g hg d hd).1; omega⟩) (h.queues _ (Nat.le_refl _)) h.abandoned
  rw [h.chunks]
  exact this

/-- the two connections are the same, or nothing has been sent since -/
def Rel (gs : List (List Received.Decoded)) (l0 l m : Link Received.Decoded S) : Prop :=
  l = m ∨ ∃ n, l0.st.next ≤ n ∧ l = ⟨{ l0.st with next := n }, l0.peer⟩ ∧ m = ⟨settle gs { l0.st with next := n }, l0.peer⟩

theorem exchange_rel (gs : List (List Received.Decoded)) (l0 : Link Received.Decoded S) (h0 : Pend gs l0.st) (l m : Link Received.Decoded S) (h : Rel gs l0 l m) (c : Rfc4511.Call) :
    Rel gs l0 (Api.exchange codec (fun d => d.1.1) peer env l c).1 (Api.exchange codec (fun d => d.1.1) peer env m c).1 ∧
    (Api.exchange codec (fun d => d.1.1) peer env l c).2 = (Api.exchange codec (fun d => d.1.1) peer env m c).2 := by
  rcases h with rfl | ⟨n, hn, rfl, rfl⟩
  · exact ⟨.inl rfl, rfl⟩
  · have hp := h0.later n hn
    simp only [Api.exchange]
    have hnx : (settle gs { l0.st with next := n }).next = n := rfl
    rw [hnx]
    cases hsend : send n c.op env.wire with
    | none => exact ⟨.inr ⟨n + 1, Nat.le_succ_of_le hn, rfl, rfl⟩, rfl⟩
    | some bs =>
      have key : ∀ cs, Net.recvOne codec n { l0.st.sock with chunks := l0.st.sock.chunks ++ cs } = Net.recvOne codec n { (settle gs { l0.st with next := n }).sock with chunks := (settle gs { l0.st with next := n }).sock.chunks ++ cs } := by
        intro cs
        have := hp.next cs
        simp only [Net.recvOne]
        rw [show Net.next codec n (.top []) { l0.st.sock with chunks := l0.st.sock.chunks ++ cs } = _ from this]
      simp only [Session.request, hnx, hsend, key]
      generalize Net.recvOne codec n { (settle gs { l0.st with next := n }).sock with chunks := (settle gs { l0.st with next := n }).sock.chunks ++ (peer l0.peer bs).2 } = y
      rcases y with ⟨o, s⟩
      cases o <;> exact ⟨.inl rfl, trivial⟩

theorem fold_rel {A : Type} (gs : List (List Received.Decoded)) (l0 : Link Received.Decoded S) (h0 : Pend gs l0.st) (f : A → Rfc4511.Call) (as : List A) : ∀ l m : Link Received.Decoded S, Rel gs l0 l m →
    Rel gs l0 (as.foldl (fun l a => (Api.exchange codec (fun d => d.1.1) peer env l (f a)).1) l) (as.foldl (fun l a => (Api.exchange codec (fun d => d.1.1) peer env l (f a)).1) m) := by
  induction as with
  | nil => exact fun l m h => h
  | cons a as ih => exact fun l m h => ih _ _ (exchange_rel env gs l0 h0 l m h (f a)).1

/-! ## Searches -/

/-- what a server sends for the search with this id, and how it is read -/
structure Comes (n : Nat) (pieces : List Bytes) (xs : List (Search.Msg Received.Entry)) (code : Nat) (ds : List Received.Decoded) (last : Received.Decoded) : Prop where
  mids : ∀ d ∈ ds, codec.mid d = n
  midLast : codec.mid last = n
  bytes : pieces.flatten = (ds ++ [last]).flatMap codec.enc
  ne : ∀ c ∈ pieces, c ≠ []
  seen : ds.map (fun d => Received.searchMsg d.1.1) = xs.map some
  done : Received.searchMsg last.1.1 = some (.done code [] [])
  entries : ∀ x ∈ xs, ∃ e cs, x = .entry e cs

theorem comes_length {n : Nat} {pieces : List Bytes} {xs : List (Search.Msg Received.Entry)} {code : Nat} {ds : List Received.Decoded} {last : Received.Decoded} (h : Comes n pieces xs code ds last) :
    ds.length < pieces.flatten.length + 1 ∧ ds.length = xs.length := by
  constructor
  · rw [h.bytes]
    have : ∀ ds : List Received.Decoded, ds.length ≤ (ds.flatMap codec.enc).length := by
      intro ds
      induction ds with
      | nil => simp
      | cons d ds ih =>
        have h1 : 0 < (codec.enc d).length := by
          rcases Nat.eq_zero_or_pos (codec.enc d).length with h | h
          · exact absurd (List.length_eq_zero_iff.1 h) (codec.enc_ne d)
          · exact h
        simp only [List.flatMap_cons, List.length_append, List.length_cons]
        omega
    have := this (ds ++ [last])
    simp only [List.length_append, List.length_cons, List.length_nil] at this ⊢
    omega
  · have := congrArg List.length h.seen
    simpa using this

theorem search_comes (hs : Serves dir contents peer) (s : S) (n : Nat) (a : SearchArgs V) (sent : SearchSent V) (bs : Bytes) (hsr : ldapSearch env.conn a = .ok sent)
    (hsend : send n (Call.search sent.req).op sent.ctrls = some bs) :
    contents (peer s bs).1 = contents s ∧ ∃ (found : List Found) (r : Spec.Wire.Result) (ds : List Received.Decoded) (last : Received.Decoded),
      Comes n (peer s bs).2 ((found.map show1).map (fun e => Search.Msg.entry e [])) (Received.codeOf r.code) ds last ∧ Received.codeOf r.code ≠ 10 := by
  obtain ⟨op, ho, hv, _, henc⟩ := c79_sent _ _ _ _ hsend
  obtain ⟨hfor, his⟩ := search_request _ _ _ hsr op ho
  obtain ⟨he, found, r, h10, href, hnames, ⟨bss, hp, hne, hfl⟩, hok, h32⟩ := hs.search s bs _ op _ his hv henc
  refine ⟨he, found, r, ?_⟩
  have hid : Spec.Wire.Int0Max n := hv.1
  obtain ⟨ds, hds1, hds2, hds3⟩ := answered_decoded _ _ _ hp
  rw [List.map_append] at hds1
  obtain ⟨ms, last, rfl, hms, hlast⟩ := map_append_split _ _ _ _ hds1
  have hsee : (found.map Spec.DirectoryS.entryOp).map (fun o => Received.searchMsg (messageV ⟨n, o, none⟩)) =
      ((found.map show1).map (fun e => Search.Msg.entry e [])).map some := by
    simp only [List.map_map]
    apply List.map_congr_left
    intro e hm
    obtain ⟨b, _, hb⟩ := pairwise_mem hp (Spec.DirectoryS.entryOp e) (List.mem_append_left _ (List.mem_map.2 ⟨e, hm, rfl⟩))
    exact entry_seen _ hid e.1 e.2 (hnames e hm) b hb
  refine ⟨ms, last, ⟨fun m hm => by simpa using hds3 m (by simp [hm]), by simpa using hds3 last (by simp), by rw [hfl, ← hds2], hne, ?_, ?_, ?_⟩, fun h => h10 ((SessionP.code_iff r.code 10 (by decide)).1 h)⟩
  · rw [← hsee, show ms.map (fun m => Received.searchMsg m.1.1) = (ms.map (fun d => d.1.1)).map Received.searchMsg by rw [List.map_map]; rfl, hms]
    simp only [List.map_map]
    rfl
  · rw [hlast]; exact done_view _ r href
  · intro x hx
    obtain ⟨e, _, rfl⟩ := List.mem_map.1 hx
    exact ⟨_, _, rfl⟩

/-- reading all of it -/
theorem comes_all {n : Nat} {pieces : List Bytes} {xs : List (Search.Msg Received.Entry)} {code : Nat} {ds : List Received.Decoded} {last : Received.Decoded} (h : Comes n pieces xs code ds last)
    (st : Session.St Received.Decoded) (hr : SessionP.Ready st) (hn : st.next = n) (k : Nat) (hk : ds.length < k) :
    collect codec (fun d => d.1.1) n k (.top []) { st.sock with chunks := st.sock.chunks ++ pieces } = ((xs ++ [.done code [] []], .osError), { st.sock with chunks := [] }) := by
  obtain ⟨h0, hch, hab, hq⟩ := hr
  exact collect_run codec (fun d => d.1.1) n last h.midLast code [] [] h.done ds xs k (.top []) [] { st.sock with chunks := st.sock.chunks ++ pieces } h.mids h.seen h.entries (.inl ⟨rfl, rfl⟩)
    (by rw [hch]; exact h.ne) (by
      show [] ++ (st.sock.chunks ++ pieces).flatten = _
      rw [hch, List.nil_append, List.nil_append, h.bytes]) hk (hq _ (by omega)) hab

theorem collect_next (n : Nat) (k : Nat) (s s' : Net.Sock UInt8 Received.Decoded) (h : Net.next codec n (.top []) s = Net.next codec n (.top []) s') :
    collect codec (fun d => d.1.1) n (k + 1) (.top []) s = collect codec (fun d => d.1.1) n (k + 1) (.top []) s' := by
  simp only [collect, h]

theorem takes_pos (ends : List (Search.Msg Received.Entry) → Bool) (ms : List (Search.Msg Received.Entry)) (k : Nat) (h : Api.takes ends ms = some k) : ∃ j, k = j + 1 := by
  simp only [Api.takes, Option.map_eq_some_iff] at h
  obtain ⟨j, _, rfl⟩ := h
  exact ⟨j, rfl⟩

theorem searchAll_rel (hs : Serves dir contents peer) (gs : List (List Received.Decoded)) (l0 : Link Received.Decoded S) (h0 : Pend gs l0.st) (l m : Link Received.Decoded S) (h : Rel gs l0 l m) (a : SearchArgs V) :
    Rel gs l0 (Api.searchAll codec (fun d => d.1.1) peer env l a).1 (Api.searchAll codec (fun d => d.1.1) peer env m a).1 ∧
    (Api.searchAll codec (fun d => d.1.1) peer env l a).2 = (Api.searchAll codec (fun d => d.1.1) peer env m a).2 := by
  rcases h with rfl | ⟨n, hn, rfl, rfl⟩
  · exact ⟨.inl rfl, rfl⟩
  · have hp := h0.later n hn
    simp only [Api.searchAll]
    have hnx : (settle gs { l0.st with next := n }).next = n := rfl
    rw [hnx]
    cases hsr : ldapSearch env.conn a with
    | error e => exact ⟨.inr ⟨n, hn, rfl, rfl⟩, rfl⟩
    | ok sent =>
      simp only []
      cases hsend : send n (Call.search sent.req).op sent.ctrls with
      | none => exact ⟨.inr ⟨n + 1, Nat.le_succ_of_le hn, rfl, rfl⟩, rfl⟩
      | some bs =>
        obtain ⟨_, found, r, ds, last, hcome, _⟩ := search_comes env hs l0.peer n a sent bs hsr hsend
        dsimp only
        have hnext := hp.next (peer l0.peer bs).2
        have hcol := fun k => collect_next n k _ _ hnext
        have hall := comes_all hcome _ hp.ready rfl
        have hlen := comes_length hcome
        have e1 : ∀ k, ds.length < k → collect codec (fun d => d.1.1) n k (.top []) { l0.st.sock with chunks := l0.st.sock.chunks ++ (peer l0.peer bs).2 } = _ := fun k hk => by
          obtain ⟨j, rfl⟩ : ∃ j, k = j + 1 := ⟨k - 1, by omega⟩
          exact (hcol j).trans (hall (j + 1) hk)
        have f1 : ds.length < (l0.st.sock.chunks ++ (peer l0.peer bs).2).flatten.length + 1 := by
          simp only [List.flatten_append, List.length_append]; omega
        have f2 : ds.length < ((settle gs { l0.st with next := n }).sock.chunks ++ (peer l0.peer bs).2).flatten.length + 1 := by
          simp only [List.flatten_append, List.length_append]; omega
        rw [e1 _ f1, hall _ f2]
        refine ⟨?_, rfl⟩
        left
        dsimp only
        split
        · rename_i k hk
          obtain ⟨j, rfl⟩ := takes_pos _ _ _ hk
          rw [show collect codec (fun d => d.1.1) n (j + 1) (.top []) { l0.st.sock with chunks := l0.st.sock.chunks ++ (peer l0.peer bs).2 } = _ from hcol j]
        · rfl

/-! ## Calls -/

theorem getOne_rel (hs : Serves dir contents peer) (gs : List (List Received.Decoded)) (l0 : Link Received.Decoded S) (h0 : Pend gs l0.st) (l m : Link Received.Decoded S) (h : Rel gs l0 l m) (dn : Str)
    (attrs : Option (List Str)) (kwds : PDict Str (Controls.Kwd V)) :
    Rel gs l0 (Api.getOne codec (fun d => d.1.1) peer env l dn attrs kwds).1 (Api.getOne codec (fun d => d.1.1) peer env m dn attrs kwds).1 ∧
    (Api.getOne codec (fun d => d.1.1) peer env l dn attrs kwds).2 = (Api.getOne codec (fun d => d.1.1) peer env m dn attrs kwds).2 := by
  obtain ⟨h1, h2⟩ := searchAll_rel env hs gs l0 h0 l m h (Api.getArgs dn attrs kwds)
  simp only [Api.getOne]
  by_cases hu : env.conn.unbound = true
  · simp only [if_pos hu]; exact ⟨h, trivial⟩
  · simp only [if_neg hu]
    revert h1 h2
    rcases Api.searchAll codec (fun d => d.1.1) peer env l (Api.getArgs dn attrs kwds) with ⟨l', r⟩
    rcases Api.searchAll codec (fun d => d.1.1) peer env m (Api.getArgs dn attrs kwds) with ⟨m', r'⟩
    intro h1 h2
    dsimp only at h1 h2
    subst h2
    cases r <;> exact ⟨h1, rfl⟩

theorem call_rel (hs : Serves dir contents peer) (gs : List (List Received.Decoded)) (l0 : Link Received.Decoded S) (h0 : Pend gs l0.st) (l m : Link Received.Decoded S) (h : Rel gs l0 l m) (c : Api.Call V) :
    Rel gs l0 (Api.call codec (fun d => d.1.1) peer env l c).1 (Api.call codec (fun d => d.1.1) peer env m c).1 ∧
    (Api.call codec (fun d => d.1.1) peer env l c).2 = (Api.call codec (fun d => d.1.1) peer env m c).2 := by
  have hx := fun c => exchange_rel (peer := peer) env gs l0 h0 l m h c
  cases c with
  | add dn attrs =>
    simp only [Api.call, fun rq : AddReq AVal => (hx (.add rq.dn rq.attrs)).2]
    exact ⟨fold_rel env gs l0 h0 (fun rq : AddReq AVal => .add rq.dn rq.attrs) _ _ _ h, trivial⟩
  | delete dn =>
    simp only [Api.call]
    by_cases hu : env.conn.unbound = true
    · simp only [if_pos hu]; exact ⟨h, trivial⟩
    · simp only [if_neg hu]
      cases env.ctrlsOk with
      | error e => exact ⟨h, rfl⟩
      | ok _ => exact ⟨(hx _).1, by simp only [(hx _).2]⟩
  | modDn dn rdn clean parent =>
    simp only [Api.call, Api.sendModDn, fun rq : ModDnReq => (hx (.modDn rq)).2]
    exact ⟨fold_rel env gs l0 h0 (fun rq : ModDnReq => .modDn rq) _ _ _ h, trivial⟩
  | move dn newDn clean =>
    simp only [Api.call, Api.sendModDn, fun rq : ModDnReq => (hx (.modDn rq)).2]
    exact ⟨fold_rel env gs l0 h0 (fun rq : ModDnReq => .modDn rq) _ _ _ h, trivial⟩
  | modify dn mods current =>
    simp only [Api.call, fun rq : ModRequest AVal => (hx (.modify rq)).2]
    exact ⟨fold_rel env gs l0 h0 (fun rq : ModRequest AVal => .modify rq) _ _ _ h, trivial⟩
  | compare dn attr value =>
    simp only [Api.call]
    by_cases hu : env.conn.unbound = true
    · simp only [if_pos hu]; exact ⟨h, trivial⟩
    · simp only [if_neg hu]
      cases env.ctrlsOk with
      | error e => exact ⟨h, rfl⟩
      | ok _ => exact ⟨(hx _).1, by simp only [(hx _).2]⟩
  | search a =>
    obtain ⟨h1, h2⟩ := searchAll_rel env hs gs l0 h0 l m h a
    simp only [Api.call]
    revert h1 h2
    rcases Api.searchAll codec (fun d => d.1.1) peer env l a with ⟨l', r⟩
    rcases Api.searchAll codec (fun d => d.1.1) peer env m a with ⟨m', r'⟩
    intro h1 h2
    dsimp only at h1 h2
    subst h2
    cases r <;> exact ⟨h1, rfl⟩
  | get_ dn attrs kwds =>
    obtain ⟨h1, h2⟩ := getOne_rel env hs gs l0 h0 l m h dn attrs kwds
    simp only [Api.call]
    revert h1 h2
    rcases Api.getOne codec (fun d => d.1.1) peer env l dn attrs kwds with ⟨l', r⟩
    rcases Api.getOne codec (fun d => d.1.1) peer env m dn attrs kwds with ⟨m', r'⟩
    intro h1 h2
    dsimp only at h1 h2
    subst h2
    cases r <;> exact ⟨h1, rfl⟩
  | exists_ dn =>
    obtain ⟨h1, h2⟩ := getOne_rel env hs gs l0 h0 l m h dn (some [str "1.1"]) []
    simp only [Api.call]
    revert h1 h2
    rcases Api.getOne codec (fun d => d.1.1) peer env l dn (some [str "1.1"]) [] with ⟨l', r⟩
    rcases Api.getOne codec (fun d => d.1.1) peer env m dn (some [str "1.1"]) [] with ⟨m', r'⟩
    intro h1 h2
    dsimp only at h1 h2
    subst h2
    cases r with
    | ok x => exact ⟨h1, rfl⟩
    | error e => cases e <;> exact ⟨h1, rfl⟩

/-! ## What a call leaves behind -/

theorem enc_split (C : Net.Codec UInt8 Received.Decoded) : ∀ (as bs : List Received.Decoded), as.flatMap C.enc = bs.flatMap C.enc → as = bs := by
  intro as
  induction as with
  | nil =>
    intro bs h
    cases bs with
    | nil => rfl
    | cons b bs =>
      rw [List.flatMap_nil, List.flatMap_cons] at h
      exact absurd (List.append_eq_nil_iff.1 h.symm).1 (C.enc_ne b)
  | cons a as ih =>
    intro bs h
    cases bs with
    | nil =>
      rw [List.flatMap_nil, List.flatMap_cons] at h
      exact absurd (List.append_eq_nil_iff.1 h).1 (C.enc_ne a)
    | cons b bs =>
      rw [List.flatMap_cons, List.flatMap_cons] at h
      have h1 := C.dec_enc a (as.flatMap C.enc)
      rw [h, C.dec_enc b] at h1
      simp only [Option.some.injEq, Prod.mk.injEq] at h1
      obtain ⟨rfl, h2⟩ := h1
      rw [ih bs h2.symm]

theorem whole_decoded (bss : List Bytes) (h : ∀ b ∈ bss, ∃ m : Spec.Wire.Message, m.Valid ∧ m.enc Spec.Wire.x690 b) : ∃ g : List Received.Decoded, bss.flatten = g.flatMap codec.enc := by
  induction bss with
  | nil => exact ⟨[], rfl⟩
  | cons b bss ih =>
    obtain ⟨g, hg⟩ := ih (fun x hx => h x (List.mem_cons_of_mem _ hx))
    obtain ⟨m, hv, he⟩ := h b List.mem_cons_self
    refine ⟨⟨(messageV m, b), [], recv_ok _ hv b he []⟩ :: g, ?_⟩
    rw [List.flatten_cons, hg, List.flatMap_cons]
    rfl

theorem whole_groups (pieces : List Bytes) (hne : ∀ c ∈ pieces, c ≠ []) (h : ∀ c ∈ pieces, ∃ bss : List Bytes, c = bss.flatten ∧ ∀ b ∈ bss, ∃ m : Spec.Wire.Message, m.Valid ∧ m.enc Spec.Wire.x690 b) :
    ∃ gs : List (List Received.Decoded), pieces = gs.map (fun g => g.flatMap codec.enc) ∧ ∀ g ∈ gs, g ≠ [] := by
  induction pieces with
  | nil => exact ⟨[], rfl, nofun⟩
  | cons c pieces ih =>
    obtain ⟨gs, h1, h2⟩ := ih (fun x hx => hne x (List.mem_cons_of_mem _ hx)) (fun x hx => h x (List.mem_cons_of_mem _ hx))
    obtain ⟨bss, hc, hb⟩ := h c List.mem_cons_self
    obtain ⟨g, hg⟩ := whole_decoded bss hb
    refine ⟨g :: gs, by rw [List.map_cons, ← h1, ← hg, ← hc], ?_⟩
    intro x hx
    rcases List.mem_cons.1 hx with rfl | hx
    · rintro rfl
      exact hne c List.mem_cons_self (by rw [hc, hg]; rfl)
    · exact h2 x hx

theorem comes_groups {n : Nat} {pieces : List Bytes} {xs : List (Search.Msg Received.Entry)} {code : Nat} {ds : List Received.Decoded} {last : Received.Decoded} (h : Comes n pieces xs code ds last)
    (hw : ∀ c ∈ pieces, ∃ bss : List Bytes, c = bss.flatten ∧ ∀ b ∈ bss, ∃ m : Spec.Wire.Message, m.Valid ∧ m.enc Spec.Wire.x690 b) :
    ∃ gs : List (List Received.Decoded), pieces = gs.map (fun g => g.flatMap codec.enc) ∧ (∀ g ∈ gs, g ≠ []) ∧ gs.flatten = ds ++ [last] := by
  obtain ⟨gs, h1, h2⟩ := whole_groups pieces h.ne hw
  refine ⟨gs, h1, h2, enc_split codec _ _ ?_⟩
  rw [← h.bytes, h1]
  clear h1 h2 hw h
  induction gs with
  | nil => rfl
  | cons g gs ih => rw [List.flatten_cons, List.flatMap_append, ih]; rfl

/-- the connection is as before but for whole messages of later requests that wait to be received -/
def Kept (m m' : Session.St Received.Decoded) : Prop :=
  ∃ (n : Nat) (gs : List (List Received.Decoded)), m.next ≤ n ∧ m' = ⟨n, setC (gs.map (fun g => g.flatMap codec.enc)) m.sock⟩ ∧ ∀ g ∈ gs, ∀ d ∈ g, m.next ≤ codec.mid d ∧ codec.mid d < n

theorem kept_next (m : Session.St Received.Decoded) (hr : SessionP.Ready m) (n : Nat) (hn : m.next ≤ n) : Kept m { m with next := n } :=
  ⟨n, [], hn, by rw [show ({ m with next := n } : Session.St Received.Decoded) = ⟨n, m.sock⟩ from rfl]; congr 1; show m.sock = setC [] m.sock; rw [setC, ← hr.2.1], nofun⟩

theorem exchange_kept (l : Link Received.Decoded S) (hr : SessionP.Ready l.st) (c : Rfc4511.Call)
    (hans : ∀ bs o, Spec.Wire.asks c = some o → (Spec.Wire.message l.st.next o env.wire).Valid → (Spec.Wire.message l.st.next o env.wire).enc Spec.Wire.x690 bs → ∃ o', Answered l.st.next [o'] (peer l.peer bs).2) :
    (Api.exchange codec (fun d => d.1.1) peer env l c).1.st = { l.st with next := l.st.next + 1 } := by
  simp only [Api.exchange]
  cases hsend : send l.st.next c.op env.wire with
  | none => rfl
  | some bs =>
    obtain ⟨o, ho, hv, _, henc⟩ := c79_sent _ _ _ _ hsend
    obtain ⟨o', bss, hp, hne, hfl⟩ := hans bs o ho hv henc
    dsimp only
    generalize peer l.peer bs = p at hne hfl ⊢
    obtain ⟨h0, hch, hab, hq⟩ := hr
    obtain ⟨ds, hds1, hds2, hds3⟩ := answered_decoded _ _ _ hp
    match ds, hds1, hds2, hds3 with
    | [ans], hds1, hds2, hds3 =>
      have hmid : codec.mid ans = l.st.next := by simpa using hds3 ans (by simp)
      obtain ⟨raw', cs', g1, g2, g3⟩ := next_first codec l.st.next ans hmid [] { l.st.sock with chunks := l.st.sock.chunks ++ p.2 } (hq _ (Nat.le_refl _)) hab (.top []) [] (.inl ⟨rfl, rfl⟩) (by rw [hch]; exact hne)
        (by
          show [] ++ (l.st.sock.chunks ++ p.2).flatten = _
          rw [hch, List.nil_append, List.nil_append, hfl, ← hds2]
          simp)
      have hcs : cs' = [] := by
        cases cs' with
        | nil => rfl
        | cons c cs =>
          exfalso
          have := (List.append_eq_nil_iff.1 g2).2
          exact g3 c (by simp) (List.flatten_eq_nil_iff.1 this c (by simp))
      subst hcs
      simp only [Session.request, hsend, Net.recvOne, g1]
      rw [show ({ l.st.sock with chunks := [] } : Net.Sock UInt8 Received.Decoded) = l.st.sock by rw [← hch]]
    | [], hds1, _, _ => simp at hds1
    | _ :: _ :: _, hds1, _, _ => simp at hds1

/-- a call that is answered by one message -/
def Simple (c : Rfc4511.Call) : Prop := ∀ o, Spec.Wire.asks c = some o → (∃ resp, respond o = some resp) ∨ ∃ dn a v, o = .compareRequest dn a v

theorem simple_kept (hs : Serves dir contents peer) (l : Link Received.Decoded S) (hr : SessionP.Ready l.st) (c : Rfc4511.Call) (hc : Simple c) :
    (Api.exchange codec (fun d => d.1.1) peer env l c).1.st = { l.st with next := l.st.next + 1 } := by
  refine exchange_kept env l hr c (fun bs o ho hv he => ?_)
  rcases hc o ho with ⟨resp, hresp⟩ | ⟨dn, a, v, rfl⟩
  · obtain ⟨r, ha, _⟩ := hs.update l.peer bs _ o resp _ hresp hv he
    exact ⟨_, ha⟩
  · obtain ⟨_, r, ha, _⟩ := hs.compare l.peer bs _ _ _ _ _ hv he
    exact ⟨_, ha⟩

theorem fold_kept {A : Type} (hs : Serves dir contents peer) (f : A → Rfc4511.Call) (hf : ∀ a, Simple (f a)) (as : List A) : ∀ l : Link Received.Decoded S, SessionP.Ready l.st →
    ∃ n, l.st.next ≤ n ∧ (as.foldl (fun l a => (Api.exchange codec (fun d => d.1.1) peer env l (f a)).1) l).st = { l.st with next := n } := by
  induction as with
  | nil => exact fun l _ => ⟨l.st.next, Nat.le_refl _, rfl⟩
  | cons a as ih =>
    intro l hr
    have h1 := simple_kept env hs l hr (f a) (hf a)
    obtain ⟨n, h2, h3⟩ := ih (Api.exchange codec (fun d => d.1.1) peer env l (f a)).1 (by rw [h1]; exact ready_skip _ hr)
    rw [h1] at h2 h3
    exact ⟨n, Nat.le_of_succ_le h2, h3⟩

theorem collect_some (n : Nat) (ds : List Received.Decoded) : ∀ (xs : List (Search.Msg Received.Entry)) (k : Nat) (p : Net.Phase UInt8) (raw : Bytes) (s : Net.Sock UInt8 Received.Decoded) (last : Received.Decoded) (code : Nat),
    codec.mid last = n → Received.searchMsg last.1.1 = some (.done code [] []) → (∀ m ∈ ds, codec.mid m = n) → ds.map (fun m => Received.searchMsg m.1.1) = xs.map some → (∀ x ∈ xs, ∃ e cs, x = .entry e cs) →
    Holds p raw → (∀ c ∈ s.chunks, c ≠ []) → raw ++ s.chunks.flatten = (ds ++ [last]).flatMap codec.enc → s.queues n = none → s.abandoned = [] →
    ∃ cs', (collect codec (fun d => d.1.1) n k p s).2 = { s with chunks := cs' } ∧ cs' <:+ s.chunks := by
  have nsuf : ∀ (p : Net.Phase UInt8) (raw : Bytes) (s : Net.Sock UInt8 Received.Decoded), Holds p raw → (Net.next codec n p s).2.2.chunks <:+ s.chunks := by
    intro p raw s hp
    rcases hp with ⟨rfl, rfl⟩ | rfl
    · exact outer_suffix _ _ _ _ _ _
    · exact decoding_suffix codec n raw s
  induction ds with
  | nil =>
    intro xs k p raw s last code hl hd _ hx _ hp hne hb hq hab
    cases k with
    | zero => exact ⟨s.chunks, rfl, List.suffix_refl _⟩
    | succ k =>
      obtain ⟨raw', cs', g1, g2, g3⟩ := next_first codec n last hl [] s hq hab p raw hp hne (by simpa using hb)
      have := nsuf p raw s hp
      rw [g1] at this
      simp only [collect, g1, hd]
      exact ⟨cs', rfl, this⟩
  | cons d ds ih =>
    intro xs k p raw s last code hl hd hm hx he hp hne hb hq hab
    cases k with
    | zero => exact ⟨s.chunks, rfl, List.suffix_refl _⟩
    | succ k =>
      cases xs with
      | nil => simp at hx
      | cons x xs =>
        simp only [List.map_cons, List.cons.injEq] at hx
        obtain ⟨raw', cs', g1, g2, g3⟩ := next_first codec n d (hm d (by simp)) ((ds ++ [last]).flatMap codec.enc) s hq hab p raw hp hne (by simpa using hb)
        have hsuf := nsuf p raw s hp
        rw [g1] at hsuf
        obtain ⟨cs2, k1, k2⟩ := ih xs k (.decoding raw') raw' { s with chunks := cs' } last code hl hd (fun m hm' => hm m (List.mem_cons_of_mem _ hm')) hx.2 (fun x hx => he x (List.mem_cons_of_mem _ hx)) (.inr rfl) g3 g2 hq hab
        obtain ⟨e, cs, rfl⟩ := he x (by simp)
        simp only [collect, g1, hx.1, k1]
        exact ⟨cs2, rfl, k2.trans hsuf⟩

theorem suffix_groups (gs : List (List Received.Decoded)) : ∀ cs : List Bytes, cs <:+ gs.map (fun g => g.flatMap codec.enc) → ∃ gs', cs = gs'.map (fun g => g.flatMap codec.enc) ∧ gs' <:+ gs := by
  intro cs h
  obtain ⟨pre, hp⟩ := h
  refine ⟨gs.drop pre.length, ?_, List.drop_suffix _ _⟩
  rw [List.map_drop, ← hp, List.drop_left]

theorem searchAll_kept (hs : Serves dir contents peer) (hw : Whole peer) (l : Link Received.Decoded S) (hr : SessionP.Ready l.st) (a : SearchArgs V) :
    Kept l.st (Api.searchAll codec (fun d => d.1.1) peer env l a).1.st := by
  simp only [Api.searchAll]
  cases hsr : ldapSearch env.conn a with
  | error e => exact kept_next _ hr _ (Nat.le_refl _)
  | ok sent =>
    simp only []
    cases hsend : send l.st.next (Call.search sent.req).op sent.ctrls with
    | none => exact kept_next _ hr _ (Nat.le_succ _)
    | some bs =>
      obtain ⟨_, found, r, ds, last, hcome, _⟩ := search_comes env hs l.peer _ a sent bs hsr hsend
      obtain ⟨op, ho, hv, _, henc⟩ := c79_sent _ _ _ _ hsend
      obtain ⟨_, his⟩ := search_request _ _ _ hsr op ho
      obtain ⟨gs, g1, g2, g3⟩ := comes_groups hcome (hw l.peer bs _ op _ his hv henc)
      have hall := comes_all hcome _ hr rfl
      have hlen := comes_length hcome
      have f2 : ds.length < (l.st.sock.chunks ++ (peer l.peer bs).2).flatten.length + 1 := by
        simp only [List.flatten_append, List.length_append]; omega
      dsimp only
      rw [hall _ f2]
      have hk : ∀ k, ∃ cs', (collect codec (fun d => d.1.1) l.st.next k (.top []) { l.st.sock with chunks := l.st.sock.chunks ++ (peer l.peer bs).2 }).2 = { l.st.sock with chunks := cs' } ∧ cs' <:+ (peer l.peer bs).2 := by
        intro k
        obtain ⟨h0, hch, hab, hq⟩ := hr
        obtain ⟨cs', k1, k2⟩ := collect_some l.st.next ds _ k (.top []) [] { l.st.sock with chunks := l.st.sock.chunks ++ (peer l.peer bs).2 } last _ hcome.midLast hcome.done hcome.mids hcome.seen hcome.entries (.inl ⟨rfl, rfl⟩)
          (by rw [hch]; exact hcome.ne) (by
            show [] ++ (l.st.sock.chunks ++ (peer l.peer bs).2).flatten = _
            rw [hch, List.nil_append, List.nil_append, hcome.bytes]) (hq _ (Nat.le_refl _)) hab
        refine ⟨cs', k1, ?_⟩
        have k3 : cs' <:+ l.st.sock.chunks ++ (peer l.peer bs).2 := k2
        rw [hch] at k3
        exact k3
      have fin : ∀ cs', cs' <:+ (peer l.peer bs).2 → Kept l.st ⟨l.st.next + 1, { l.st.sock with chunks := cs' }⟩ := by
        intro cs' hcs
        rw [g1] at hcs
        obtain ⟨gs', e1, e2⟩ := suffix_groups gs cs' hcs
        refine ⟨l.st.next + 1, gs', Nat.le_succ _, by rw [e1]; rfl, ?_⟩
        intro g hg d hd
        have hmem : d ∈ ds ++ [last] := by
          rw [← g3]
          exact List.mem_flatten.2 ⟨g, e2.subset hg, hd⟩
        have : codec.mid d = l.st.next := by
          rcases List.mem_append.1 hmem with h | h
          · exact hcome.mids d h
          · rw [List.mem_singleton.1 h]; exact hcome.midLast
        omega
      split
      · rename_i k _
        obtain ⟨cs', k1, k2⟩ := hk k
        rw [k1]
        exact fin cs' k2
      · exact fin [] (List.nil_suffix)

theorem call_kept (hs : Serves dir contents peer) (hw : Whole peer) (l : Link Received.Decoded S) (hr : SessionP.Ready l.st) (c : Api.Call V) :
    Kept l.st (Api.call codec (fun d => d.1.1) peer env l c).1.st := by
  have up : ∀ {A : Type} (f : A → Rfc4511.Call) (as : List A), (∀ a, Simple (f a)) → Kept l.st (as.foldl (fun l a => (Api.exchange codec (fun d => d.1.1) peer env l (f a)).1) l).st := by
    intro A f as hf
    obtain ⟨n, h1, h2⟩ := fold_kept env hs f hf as l hr
    rw [h2]
    exact kept_next _ hr n h1
  have one : ∀ c : Rfc4511.Call, Simple c → Kept l.st (Api.exchange codec (fun d => d.1.1) peer env l c).1.st := by
    intro c hc
    rw [simple_kept env hs l hr c hc]
    exact kept_next _ hr _ (Nat.le_succ _)
  have same : Kept l.st l.st := kept_next _ hr _ (Nat.le_refl _)
  have hget : ∀ dn attrs kwds, Kept l.st (Api.getOne codec (fun d => d.1.1) peer env l dn attrs kwds).1.st := by
    intro dn attrs kwds
    have h1 := searchAll_kept env hs hw l hr (Api.getArgs dn attrs kwds)
    simp only [Api.getOne]
    by_cases hu : env.conn.unbound = true
    · simp only [if_pos hu]; exact same
    · simp only [if_neg hu]
      revert h1
      rcases Api.searchAll codec (fun d => d.1.1) peer env l (Api.getArgs dn attrs kwds) with ⟨l', r⟩
      intro h1
      cases r <;> exact h1
  cases c with
  | add dn attrs => exact up (fun rq : AddReq AVal => .add rq.dn rq.attrs) _ (fun a o ho => by simp only [Spec.Wire.asks, Option.some.injEq] at ho; subst ho; exact .inl ⟨_, rfl⟩)
  | delete dn =>
    simp only [Api.call]
    by_cases hu : env.conn.unbound = true
    · simp only [if_pos hu]; exact same
    · simp only [if_neg hu]
      cases env.ctrlsOk with
      | error e => exact same
      | ok _ => exact one _ (fun o ho => by simp only [Spec.Wire.asks, Option.some.injEq] at ho; subst ho; exact .inl ⟨_, rfl⟩)
  | modDn dn rdn clean parent => exact up (fun rq : ModDnReq => .modDn rq) _ (fun a o ho => by simp only [Spec.Wire.asks, Option.some.injEq] at ho; subst ho; exact .inl ⟨_, rfl⟩)
  | move dn newDn clean => exact up (fun rq : ModDnReq => .modDn rq) _ (fun a o ho => by simp only [Spec.Wire.asks, Option.some.injEq] at ho; subst ho; exact .inl ⟨_, rfl⟩)
  | modify dn mods current => exact up (fun rq : ModRequest AVal => .modify rq) _ (fun a o ho => by simp only [Spec.Wire.asks, Option.some.injEq] at ho; subst ho; exact .inl ⟨_, rfl⟩)
  | compare dn attr value =>
    simp only [Api.call]
    by_cases hu : env.conn.unbound = true
    · simp only [if_pos hu]; exact same
    · simp only [if_neg hu]
      cases env.ctrlsOk with
      | error e => exact same
      | ok _ => exact one _ (fun o ho => by simp only [Spec.Wire.asks, Option.some.injEq] at ho; subst ho; exact .inr ⟨_, _, _, rfl⟩)
  | search a =>
    have h1 := searchAll_kept env hs hw l hr a
    simp only [Api.call]
    revert h1
    rcases Api.searchAll codec (fun d => d.1.1) peer env l a with ⟨l', r⟩
    intro h1
    cases r <;> exact h1
  | get_ dn attrs kwds =>
    have h1 := hget dn attrs kwds
    simp only [Api.call]
    revert h1
    rcases Api.getOne codec (fun d => d.1.1) peer env l dn attrs kwds with ⟨l', r⟩
    intro h1
    cases r <;> exact h1
  | exists_ dn =>
    have h1 := hget dn (some [str "1.1"]) []
    simp only [Api.call]
    revert h1
    rcases Api.getOne codec (fun d => d.1.1) peer env l dn (some [str "1.1"]) [] with ⟨l', r⟩
    intro h1
    cases r with
    | ok x => exact h1
    | error e => cases e <;> exact h1

/-- a call on a connection where whole messages of earlier requests wait to be received: it does what it does otherwise, and afterwards nothing has been sent or those messages are in their queues -/
theorem nested (hs : Serves dir contents peer) (hw : Whole peer) (gs : List (List Received.Decoded)) (l : Link Received.Decoded S) (h : Pend gs l.st) (c : Api.Call V) :
    let x := Api.call codec (fun d => d.1.1) peer env l c
    Effect dir env (contents l.peer) c x.2 (contents x.1.peer) ∧
    ((∃ n, l.st.next ≤ n ∧ x.1.st = { l.st with next := n }) ∨
     ∃ (n : Nat) (gs' : List (List Received.Decoded)), l.st.next ≤ n ∧ x.1.st = ⟨n, setC (gs'.map (fun g => g.flatMap codec.enc)) (enqAll codec l.st.sock gs.flatten)⟩ ∧ ∀ g ∈ gs', ∀ d ∈ g, l.st.next ≤ codec.mid d ∧ codec.mid d < n) := by
  intro x
  obtain ⟨h1, h2⟩ := call_rel (peer := peer) env hs gs l h l ⟨settle gs l.st, l.peer⟩ (.inr ⟨l.st.next, Nat.le_refl _, rfl, rfl⟩) c
  have h3 := call_kept env hs hw ⟨settle gs l.st, l.peer⟩ h.ready c
  have h4 := (c90_call hs env ⟨settle gs l.st, l.peer⟩ h.ready c).1
  dsimp only at h4
  rw [← h2] at h4
  rcases h1 with h1 | ⟨n, k1, k2, k3⟩
  · rw [← h1] at h3 h4
    refine ⟨h4, .inr ?_⟩
    obtain ⟨n, gs', e1, e2, e3⟩ := h3
    exact ⟨n, gs', e1, e2, e3⟩
  · rw [k3] at h4
    refine ⟨by rw [show x.1 = _ from k2]; exact h4, .inl ⟨n, k1, by rw [show x.1 = _ from k2]⟩⟩

end
end LoopP
end Laurelin.Props
