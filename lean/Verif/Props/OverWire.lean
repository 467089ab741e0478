import Verif.Props.Session
import Verif.Props.Mirror
import Verif.Spec.OverWire
/-!
# C88 what an object shows and what a server at the other end of the connection has
-/
set_option linter.unusedSectionVars false
namespace Laurelin.Props
open Laurelin Codec Asn1 Rfc4511 Spec
namespace OverWireP

/-! ## Receiving a run of messages for one request -/
section
open Net
variable {B M : Type}

theorem split_at (x y e rest : List B) (h : x ++ y = e ++ rest) : (∃ q, q ≠ [] ∧ e = x ++ q) ∨ ∃ p, x = e ++ p ∧ p ++ y = rest := by
  rcases List.append_eq_append_iff.mp h with ⟨p, hp1, hp2⟩ | ⟨p, hp1, hp2⟩
  · cases p with
    | nil => exact .inr ⟨[], by simpa using hp1.symm, by simpa using hp2⟩
    | cons c p => exact .inl ⟨c :: p, by simp, hp1⟩
  · exact .inr ⟨p, hp1, hp2.symm⟩

theorem decodeLoop_first (C : Codec B M) (want : Nat) (m : M) (hm : C.mid m = want) (s : Sock B M) (x : List B) (hx : x ≠ []) :
    (∀ q, q ≠ [] → C.enc m = x ++ q → decodeLoop C want x.length x s = .underrun x s) ∧
    (∀ p, x = C.enc m ++ p → decodeLoop C want x.length x s = .yields m p s) := by
  cases x with
  | nil => exact absurd rfl hx
  | cons b x =>
    constructor
    · intro q hq h
      have := C.dec_short m _ q hq h
      simp [decodeLoop, this]
    · intro p h
      have : C.dec (b :: x) = some (m, p) := by rw [h]; exact C.dec_enc m p
      simp [decodeLoop, this, hm]

theorem outer_first (C : Codec B M) (want : Nat) (m : M) (hm : C.mid m = want) (rest : List B) (s : Sock B M) (hq : s.queues want = none) (hab : s.abandoned = []) (cs : List (List B)) :
    ∀ (flush : Bool) (raw : List B), (∀ c ∈ cs, c ≠ []) → (∃ q, q ≠ [] ∧ C.enc m = raw ++ q) → raw ++ cs.flatten = C.enc m ++ rest →
    ∃ raw' cs', outer C want flush raw s cs = (.yields m, .decoding raw', { s with chunks := cs' }) ∧ raw' ++ cs'.flatten = rest ∧ ∀ c ∈ cs', c ≠ [] := by
  induction cs with
  | nil =>
    intro flush raw _ ⟨q, hq0, hq1⟩ h
    exfalso
    have h2 := congrArg List.length h
    have h3 := congrArg List.length hq1
    have h4 : 0 < q.length := by cases q with | nil => exact absurd rfl hq0 | cons => simp
    simp only [List.flatten_nil, List.append_nil, List.length_append] at h2 h3
    omega
  | cons c cs ih =>
    intro flush raw hne hraw h
    have hpop : (if flush then s.pop want else none) = none := by
      split
      · simp [Sock.pop, hq]
      · rfl
    simp only [List.flatten_cons, ← List.append_assoc] at h
    have hc : raw ++ c ≠ [] := by
      intro e
      exact hne c (by simp) (List.append_eq_nil_iff.1 e).2
    obtain ⟨k1, k2⟩ := decodeLoop_first C want m hm s (raw ++ c) hc
    rcases split_at _ _ _ _ h with ⟨q, hq0, hq1⟩ | ⟨p, hp0, hp1⟩
    · obtain ⟨raw', cs', g1, g2⟩ := ih false (raw ++ c) (fun x hx => hne x (List.mem_cons_of_mem _ hx)) ⟨q, hq0, hq1⟩ h
      refine ⟨raw', cs', ?_, g2⟩
      simp only [outer, hpop, hab, List.not_mem_nil, if_false, k1 q hq0 hq1]
      rw [g1, hab]
    · refine ⟨p, cs, ?_, hp1, fun x hx => hne x (List.mem_cons_of_mem _ hx)⟩
      simp only [outer, hpop, hab, List.not_mem_nil, if_false, k2 p hp0]

/-- a generator that holds these octets -/
def Holds (p : Phase B) (raw : List B) : Prop := (p = .top [] ∧ raw = []) ∨ p = .decoding raw

theorem next_first (C : Codec B M) (want : Nat) (m : M) (hm : C.mid m = want) (rest : List B) (s : Sock B M) (hq : s.queues want = none) (hab : s.abandoned = []) (p : Phase B) (raw : List B)
    (hp : Holds p raw) (hne : ∀ c ∈ s.chunks, c ≠ []) (h : raw ++ s.chunks.flatten = C.enc m ++ rest) :
    ∃ raw' cs', next C want p s = (.yields m, .decoding raw', { s with chunks := cs' }) ∧ raw' ++ cs'.flatten = rest ∧ ∀ c ∈ cs', c ≠ [] := by
  have he : ∃ q, q ≠ [] ∧ C.enc m = [] ++ q := ⟨C.enc m, C.enc_ne m, rfl⟩
  rcases hp with ⟨rfl, rfl⟩ | rfl
  · exact outer_first C want m hm rest s hq hab s.chunks true [] hne he h
  · by_cases h0 : raw = []
    · subst h0
      simp only [next, decodeLoop]
      exact outer_first C want m hm rest s hq hab s.chunks true [] hne he h
    · obtain ⟨k1, k2⟩ := decodeLoop_first C want m hm s raw h0
      rcases split_at _ _ _ _ h with ⟨q, hq0, hq1⟩ | ⟨t, hp0, hp1⟩
      · simp only [next, k1 q hq0 hq1]
        exact outer_first C want m hm rest s hq hab s.chunks false raw hne ⟨q, hq0, hq1⟩ h
      · refine ⟨t, s.chunks, ?_, hp1, hne⟩
        simp only [next, k2 t hp0]

end

section
open Net OverWire
variable {M : Type}

theorem collect_run (C : Codec UInt8 M) (view : M → Val) (want : Nat) (last : M) (hlast : C.mid last = want) (code : Nat) (ws : List Controls.Wire) (us : List Str)
    (hl : Received.searchMsg (view last) = some (.done code ws us)) (ms : List M) :
    ∀ (xs : List (Search.Msg Received.Entry)) (n : Nat) (p : Phase UInt8) (raw : Bytes) (s : Sock UInt8 M), (∀ m ∈ ms, C.mid m = want) →
      ms.map (fun m => Received.searchMsg (view m)) = xs.map some → (∀ x ∈ xs, ∃ e cs, x = .entry e cs) → Holds p raw → (∀ c ∈ s.chunks, c ≠ []) →
      raw ++ s.chunks.flatten = (ms ++ [last]).flatMap C.enc → ms.length < n → s.queues want = none → s.abandoned = [] →
      collect C view want n p s = ((xs ++ [.done code ws us], .osError), { s with chunks := [] }) := by
  induction ms with
  | nil =>
    intro xs n p raw s _ hx _ hp hne hb hn hq hab
    obtain rfl : xs = [] := by simpa using hx.symm
    obtain ⟨raw', cs', g1, g2, g3⟩ := next_first C want last hlast [] s hq hab p raw hp hne (by simpa using hb)
    obtain ⟨n, rfl⟩ : ∃ k, n = k + 1 := ⟨n - 1, by simp at hn; omega⟩
    have hcs : cs' = [] := by
      cases cs' with
      | nil => rfl
      | cons c cs =>
        exfalso
        have := (List.append_eq_nil_iff.1 g2).2
        exact g3 c (by simp) (List.flatten_eq_nil_iff.1 this c (by simp))
    subst hcs
    simp only [collect, g1, hl, List.nil_append]
  | cons m ms ih =>
    intro xs n p raw s hmid hx hent hp hne hb hn hq hab
    cases xs with
    | nil => simp at hx
    | cons x xs =>
      simp only [List.map_cons, List.cons.injEq] at hx
      obtain ⟨n, rfl⟩ : ∃ k, n = k + 1 := ⟨n - 1, by simp at hn; omega⟩
      obtain ⟨raw', cs', g1, g2, g3⟩ := next_first C want m (hmid m (by simp)) ((ms ++ [last]).flatMap C.enc) s hq hab p raw hp hne (by simpa using hb)
      have := ih xs n (.decoding raw') raw' { s with chunks := cs' } (fun m hm => hmid m (List.mem_cons_of_mem _ hm)) hx.2 (fun x hx => hent x (List.mem_cons_of_mem _ hx)) (.inr rfl) g3 g2
        (by simp only [List.length_cons] at hn; omega) hq hab
      obtain ⟨e, cs, rfl⟩ := hent x (by simp)
      simp only [collect, g1, hx.1, this, List.cons_append]

end

/-! ## What is read -/
section
open Laurelin.Wire WireP WireR

theorem bytes_shown (b : Bytes) : (shown b).bytes = b := by
  have := shown_ok b
  cases h : shown b with
  | text s => rw [h] at this; exact this.symm
  | raw c => rw [h] at this; exact this.1

theorem shown_bytes (v : AVal) (h : Spec.Wire.Shows v.bytes v) : shown v.bytes = v := by
  cases v with
  | text s => simp only [shown, Received.readVal, Received.octetsOf, AVal.bytes, utf8_round_trip]
  | raw b =>
    simp only [shown, Received.readVal, Received.octetsOf, AVal.bytes]
    cases hd : utf8Dec b with
    | none => rfl
    | some s => exact absurd (utf8_dec_enc b s hd).symm (h.2 s)

theorem done_view (mid : Int) (r : Spec.Wire.Result) (hr : r.referral = none) :
    Received.searchMsg (messageV ⟨mid, .searchResDone r, none⟩) = some (.done (Received.codeOf r.code) [] []) := by
  have hu := fun n => unpack_view ⟨mid, .searchResDone r, none⟩ n _ rfl
  have u1 := hu (str "searchResEntry")
  rw [if_neg (by show ¬ (str "searchResDone" = str "searchResEntry"); decide)] at u1
  have u2 := hu (str "searchResDone")
  rw [if_pos (by show str "searchResDone" = str "searchResDone"; rfl)] at u2
  rw [Received.searchMsg.eq_def, u1]
  simp only [u2]
  obtain ⟨code, dn, diag, ref⟩ := r
  cases hr
  rfl

theorem entry_seen (mid : Int) (hm : Spec.Wire.Int0Max mid) (dn : Str) (as : List (Str × List Bytes)) (hn : (as.map Prod.fst).Nodup) (b : Bytes)
    (hb : Spec.Wire.Message.enc Spec.Wire.x690 ⟨mid, .searchResEntry (utf8Enc dn) (as.map (fun a => ⟨utf8Enc a.1, a.2⟩)), none⟩ b) :
    Received.searchMsg (messageV ⟨mid, .searchResEntry (utf8Enc dn) (as.map (fun a => ⟨utf8Enc a.1, a.2⟩)), none⟩) = some (.entry (dn, as.map (fun p => (p.1, p.2.map shown))) []) := by
  obtain ⟨v, h1, h2⟩ := entry_view mid dn as hn hm b hb
  have h3 := recv_ok ⟨mid, .searchResEntry (utf8Enc dn) (as.map (fun a => ⟨utf8Enc a.1, a.2⟩)), none⟩ ⟨hm, trivial⟩ b hb []
  rw [List.append_nil, h1] at h3
  simp only [Res.ok.injEq, Prod.mk.injEq, and_true] at h3
  rw [← h3]
  exact h2

theorem answered_decoded (mid : Int) (ops : List Spec.Wire.Op) (bss : List Bytes)
    (h : Pairwise2 (fun o b => Spec.Wire.Message.Valid ⟨mid, o, none⟩ ∧ Spec.Wire.Message.enc Spec.Wire.x690 ⟨mid, o, none⟩ b) ops bss) :
    ∃ ds : List Received.Decoded, ds.map (fun d => d.1.1) = ops.map (fun o => messageV ⟨mid, o, none⟩) ∧ ds.flatMap codec.enc = bss.flatten ∧ ∀ d ∈ ds, codec.mid d = mid.toNat := by
  induction h with
  | nil => exact ⟨[], rfl, rfl, nofun⟩
  | @cons o b os bs h1 _ ih =>
    obtain ⟨ds, g1, g2, g3⟩ := ih
    refine ⟨⟨(messageV ⟨mid, o, none⟩, b), [], recv_ok _ h1.1 b h1.2 []⟩ :: ds, ?_, ?_, ?_⟩
    · simp only [List.map_cons, g1]
    · simp only [List.flatMap_cons, g2, List.flatten_cons]
      rfl
    · intro d hd
      rcases List.mem_cons.1 hd with rfl | hd
      · exact decoded_mid (⟨mid, o, none⟩, b) _ rfl
      · exact g3 d hd

theorem pairwise_mem {A B : Type} {P : A → B → Prop} {l : List A} {l' : List B} (h : Pairwise2 P l l') : ∀ a ∈ l, ∃ b, P a b := by
  induction h with
  | nil => nofun
  | cons h1 _ ih =>
    intro a ha
    rcases List.mem_cons.1 ha with rfl | ha
    · exact ⟨_, h1⟩
    · exact ih a ha

variable {V R : Type}

theorem iterate_found (env : Search.Env V R Received.Entry) (t : Controls.Target R) (code : Nat) (h10 : code ≠ 10) (es : List Received.Entry) :
    (Search.iterate env none t (es.map (fun e => .entry e []) ++ [.done code [] []])).yields = es.map (fun e => .entry e []) ∧
    (Search.iterate env none t (es.map (fun e => .entry e []) ++ [.done code [] []])).ending = if code = 0 ∨ code = 32 then .stop else .raised .ldapError := by
  induction es with
  | nil =>
    simp only [List.map_nil, List.nil_append, Search.iterate, Search.rcSuccess, Search.rcNoSuchObject, Search.rcReferral, if_neg h10, Controls.handleResponse]
    split <;> exact ⟨rfl, rfl⟩
  | cons e es ih =>
    simp only [List.map_cons, List.cons_append, Search.iterate, Controls.handleResponse, reduceCtorEq, if_false, Option.map_none, Search.Out.after]
    exact ⟨by rw [ih.1]; rfl, ih.2⟩

end

/-! ## Reading from the server -/
section
open Laurelin.Wire WireP WireR OverWire Spec.OverWireS
variable {V R S : Type} (lower : Str → Str) (mo : Str → Bytes → Bytes → Bool) (entry : S → Spec.Entry Bytes) (peer : Peer S) (env : Env V R)

/-- the entry as the caller sees its values -/
def seen (e : Spec.Entry Bytes) : Spec.Entry AVal := fun x => (e x).map shown

theorem read_request (c : SearchConn V R) (dn : Str) (attrs : List Str) (sent : SearchSent V)
    (h : ldapSearch c { base := dn, scope := .base, attrs := some attrs, limit := 2 } = .ok sent) :
    ∃ f, sent.req = ⟨dn, .base, c.dfltDeref, 2, c.dfltTimeout, false, f, attrs⟩ := by
  simp only [ldapSearch, Option.getD_some, Option.getD_none, List.isEmpty_nil, if_true] at h
  split at h
  · cases h
  · split at h
    · cases h
    · split at h
      · cases h
      · split at h
        · cases h
          exact ⟨_, rfl⟩
        · cases h

theorem ready_skip (st : Session.St Received.Decoded) (h : SessionP.Ready st) : SessionP.Ready { st with next := st.next + 1 } :=
  ⟨Nat.succ_pos _, h.2.1, h.2.2.1, fun j hj => h.2.2.2 j (Nat.le_of_succ_le hj)⟩

theorem fetch_gen (P : S → List Str → List (Str × List Bytes) → Prop)
    (hread : ∀ s bs mid deref size time f attrs ctrls, Spec.Wire.Message.Valid ⟨mid, readOp env.obj.dn deref size time f attrs, ctrls⟩ → Spec.Wire.Message.enc Spec.Wire.x690 ⟨mid, readOp env.obj.dn deref size time f attrs, ctrls⟩ bs →
      entry (peer s bs).1 = entry s ∧
      ∃ (found : List (Str × List (Str × List Bytes))) (r : Spec.Wire.Result), r.code ≠ 10 ∧ r.referral = none ∧ (∀ p ∈ found, (p.2.map Prod.fst).Nodup) ∧
        Answered mid (found.map (fun p => .searchResEntry (utf8Enc p.1) (p.2.map (fun a => ⟨utf8Enc a.1, a.2⟩))) ++ [.searchResDone r]) (peer s bs).2 ∧
        (r.code = 0 ∨ r.code = 32 → ∀ p ∈ found, P s attrs p.2)) (l : Link Received.Decoded S) (hr : SessionP.Ready l.st) (attrs : List Str) :
    let x := fetch codec (fun d => d.1.1) peer env l attrs
    SessionP.Ready x.1.st ∧ entry x.1.peer = entry l.peer ∧
    ∀ got, x.2 = .ok got → ∃ p, P l.peer attrs p ∧ got = p.map (fun q => (q.1, q.2.map shown)) := by
  intro x
  simp only [x, fetch]
  cases hs : ldapSearch { env.conn with unbound := env.obj.unbound } { base := env.obj.dn, scope := .base, attrs := some attrs, limit := 2 } with
  | error e => exact ⟨hr, rfl, nofun⟩
  | ok sent =>
    simp only []
    cases hsend : send l.st.next (Call.search sent.req).op sent.ctrls with
    | none => exact ⟨ready_skip _ hr, rfl, nofun⟩
    | some bs =>
      obtain ⟨f, hreq⟩ := read_request _ _ _ _ hs
      obtain ⟨o, ho, hv, _, henc⟩ := c79_sent _ _ _ _ hsend
      rw [hreq] at ho
      cases ho
      obtain ⟨he, found, r, h10, href, hnames, ⟨bss, hp, hne, hfl⟩, hfaith⟩ := hread l.peer bs l.st.next _ _ _ _ attrs _ hv henc
      dsimp only
      generalize peer l.peer bs = p at he hne hfl ⊢
      obtain ⟨h0, hch, hab, hq⟩ := hr
      have hid : Spec.Wire.Int0Max l.st.next := hv.1
      obtain ⟨ds, hds1, hds2, hds3⟩ := answered_decoded _ _ _ hp
      rw [List.map_append] at hds1
      obtain ⟨ms, last, rfl, hms, hlast⟩ := map_append_split _ _ _ _ hds1
      have hmids : ∀ m ∈ ms, codec.mid m = l.st.next := fun m hm => by simpa using hds3 m (by simp [hm])
      have hlm : codec.mid last = l.st.next := by simpa using hds3 last (by simp)
      have hsee : (found.map (fun p => Spec.Wire.Op.searchResEntry (utf8Enc p.1) (p.2.map (fun a => ⟨utf8Enc a.1, a.2⟩)))).map
          (fun o => Received.searchMsg (messageV ⟨l.st.next, o, none⟩)) =
          (found.map (fun p => Search.Msg.entry (p.1, p.2.map (fun p => (p.1, p.2.map shown))) [])).map some := by
        simp only [List.map_map]
        apply List.map_congr_left
        intro e hm
        obtain ⟨b, _, hb⟩ := pairwise_mem hp (.searchResEntry (utf8Enc e.1) (e.2.map (fun a => ⟨utf8Enc a.1, a.2⟩)))
          (List.mem_append_left _ (List.mem_map.2 ⟨e, hm, rfl⟩))
        exact entry_seen _ hid e.1 e.2 (hnames e hm) b hb
      have hcol := collect_run codec (fun d => d.1.1) l.st.next last hlm (Received.codeOf r.code) [] []
        (by rw [hlast]; exact done_view _ r href) ms _ ((l.st.sock.chunks ++ p.2).flatten.length + 1) (.top []) [] { l.st.sock with chunks := l.st.sock.chunks ++ p.2 } hmids
        (by
          rw [← hsee, show ms.map (fun m => Received.searchMsg m.1.1) = (ms.map (fun d => d.1.1)).map Received.searchMsg by rw [List.map_map]; rfl, hms]
          simp only [List.map_map]
          rfl)
        (by
          intro x hx
          obtain ⟨e, _, rfl⟩ := List.mem_map.1 hx
          exact ⟨_, _, rfl⟩) (.inl ⟨rfl, rfl⟩) (by rw [hch]; exact hne) (by
          show [] ++ (l.st.sock.chunks ++ p.2).flatten = _
          rw [hch, List.nil_append, List.nil_append, hfl, ← hds2])
        (by
          have hb : (l.st.sock.chunks ++ p.2).flatten = (ms ++ [last]).flatMap codec.enc := by rw [hch, List.nil_append, hfl, ← hds2]
          rw [hb]
          have : ∀ ds : List Received.Decoded, ds.length ≤ (ds.flatMap codec.enc).length := by
            intro ds
            induction ds with
            | nil => simp
            | cons d ds ih =>
              have h1 : 0 < (codec.enc d).length := by
                rcases Nat.eq_zero_or_pos (codec.enc d).length with h | h
                · exact absurd (List.length_eq_zero_iff.1 h) (codec.enc_ne d)
                · exact h
              simp only [List.flatMap_cons, List.length_append, List.length_cons]
              omega
          have := this (ms ++ [last])
          simp only [List.length_append, List.length_cons, List.length_nil] at this ⊢
          omega) (hq _ (Nat.le_refl _)) hab
      simp only [hcol]
      refine ⟨⟨Nat.succ_pos _, rfl, hab, fun j hj => hq j (Nat.le_of_succ_le hj)⟩, he, ?_⟩
      have hit := fun env' : Search.Env V R Received.Entry => iterate_found env' ⟨env.handleOwn, []⟩ (Received.codeOf r.code) (fun h => h10 ((SessionP.code_iff r.code 10 (by decide)).1 h))
        (found.map (fun p => (p.1, p.2.map (fun p => (p.1, p.2.map shown)))))
      simp only [List.map_map, Function.comp_def] at hit
      intro got hgot
      rw [(hit _).1, (hit _).2] at hgot
      by_cases hcode : Received.codeOf r.code = 0 ∨ Received.codeOf r.code = 32
      · rw [if_pos hcode] at hgot
        have hfaith := hfaith (hcode.imp (SessionP.code_iff r.code 0 (by decide)).1 (SessionP.code_iff r.code 32 (by decide)).1)
        match found, hfaith, hgot with
        | [], _, hgot => simp [Search.getOneResult] at hgot
        | [e], hfaith, hgot =>
          simp only [List.map_cons, List.map_nil, Search.getOneResult, Except.ok.injEq] at hgot
          subst hgot
          exact ⟨e.2, hfaith e (by simp), rfl⟩
        | _ :: _ :: _, _, hgot => simp [Search.getOneResult] at hgot
      · rw [if_neg hcode] at hgot
        cases hgot

theorem faithful_seen (e : Spec.Entry Bytes) (attrs : List Str) (p : List (Str × List Bytes)) (hf : Faithful lower e attrs p) :
    ((p.map (fun q => (q.1, q.2.map shown))).map (fun q => lower q.1)).Nodup ∧ FetchOf lower (seen e) attrs (p.map (fun q => (q.1, q.2.map shown))) := by
  refine ⟨by simpa [List.map_map, Function.comp_def] using hf.distinct, ?_, ?_⟩
  · intro kv hkv
    obtain ⟨p, hp, rfl⟩ := List.mem_map.1 hkv
    show _ = (e (lower p.1)).map shown
    rw [← hf.sound p hp]
  · intro a ha hne
    obtain ⟨p, hp, hpe⟩ := hf.complete a ha (fun h => hne (by simp [seen, h]))
    exact ⟨(p.1, p.2.map shown), List.mem_map.2 ⟨p, hp, rfl⟩, hpe⟩

theorem fetch_step (dn : Str) (hc : Conforms lower mo dn entry peer) (hdn : env.obj.dn = dn) (l : Link Received.Decoded S) (hr : SessionP.Ready l.st) (attrs : List Str) :
    let x := fetch codec (fun d => d.1.1) peer env l attrs
    SessionP.Ready x.1.st ∧ entry x.1.peer = entry l.peer ∧
    ∀ got, x.2 = .ok got → (got.map (fun p => lower p.1)).Nodup ∧ FetchOf lower (seen (entry l.peer)) attrs got := by
  intro x
  subst hdn
  obtain ⟨h1, h2, h3⟩ := fetch_gen entry peer env (fun s attrs p => Faithful lower (entry s) attrs p) hc.read l hr attrs
  refine ⟨h1, h2, fun got hgot => ?_⟩
  obtain ⟨p, hp, rfl⟩ := h3 got hgot
  exact faithful_seen lower _ _ _ hp

end

/-! ## The server's changes, as the caller sees them -/
section
open WireP
variable (mo : Str → Bytes → Bytes → Bool)

/-- the server's equality, on values as the caller sees them -/
def onBytes (a : Str) (v w : AVal) : Bool := mo a v.bytes w.bytes

def toBytes (c : Change AVal) : Change Bytes := ⟨c.op, c.attr, c.vals.map (·.bytes)⟩

def Canon (v : AVal) : Prop := shown v.bytes = v

theorem any_seen (q : Bytes → Bytes → Bool) (cur : List Bytes) (v : AVal) :
    (cur.map shown).any (fun x => q x.bytes v.bytes) = cur.any (fun x => q x v.bytes) := by
  rw [List.any_map]
  congr 1
  funext x
  simp only [Function.comp_def, bytes_shown]

theorem srvAdd_seen (q : Bytes → Bytes → Bool) (vs : List AVal) : ∀ (cur : List Bytes), (∀ v ∈ vs, Canon v) →
    srvAdd (fun x v => q x.bytes v.bytes) (cur.map shown) vs = (srvAdd q cur (vs.map (·.bytes))).map (List.map shown) := by
  induction vs with
  | nil => intro cur _; rfl
  | cons v vs ih =>
    intro cur h
    simp only [srvAdd, List.map_cons, any_seen]
    split
    · rfl
    · have := ih (cur ++ [v.bytes]) (fun w hw => h w (List.mem_cons_of_mem _ hw))
      rw [List.map_append, List.map_cons, List.map_nil, h v (by simp)] at this
      exact this

theorem dropFirst_seen (q : Bytes → Bytes → Bool) (v : AVal) (cur : List Bytes) :
    dropFirst (fun x => q x.bytes v.bytes) (cur.map shown) = (dropFirst (fun x => q x v.bytes) cur).map shown := by
  induction cur with
  | nil => rfl
  | cons x cur ih =>
    simp only [List.map_cons, dropFirst, bytes_shown]
    split
    · rfl
    · rw [ih]; rfl

theorem srvDelete_seen (q : Bytes → Bytes → Bool) (vs : List AVal) : ∀ (cur : List Bytes),
    srvDelete (fun x v => q x.bytes v.bytes) (cur.map shown) vs = (srvDelete q cur (vs.map (·.bytes))).map (List.map shown) := by
  induction vs with
  | nil => intro cur; rfl
  | cons v vs ih =>
    intro cur
    simp only [srvDelete, List.map_cons, any_seen, dropFirst_seen]
    split
    · exact ih _
    · rfl

variable (lower : Str → Str)

theorem put_seen (e : Spec.Entry Bytes) (a : Str) (l : List Bytes) : Entry.put lower (seen e) a (l.map shown) = seen (Entry.put lower e a l) := by
  funext x
  simp only [Entry.put, seen]
  split <;> rfl

theorem srvChange_seen (e : Spec.Entry Bytes) (c : Change AVal) (hc : ∀ v ∈ c.vals, Canon v) :
    srvChange lower (onBytes mo) (seen e) c = (srvChange lower mo e (toBytes c)).map seen := by
  obtain ⟨op, a, vs⟩ := c
  cases op with
  | add =>
    simp only [srvChange, toBytes]
    have h1 : srvAdd (onBytes mo a) (seen e (lower a)) vs = _ := srvAdd_seen (mo a) vs (e (lower a)) hc
    rw [h1]
    cases srvAdd (mo a) (e (lower a)) (vs.map (·.bytes)) with
    | error x => rfl
    | ok l =>
      simp only [Except.map]
      exact congrArg Except.ok (put_seen lower e a l)
  | replace =>
    simp only [srvChange, toBytes, Except.map]
    have : vs = (vs.map (·.bytes)).map shown := by
      rw [List.map_map]
      conv => lhs; rw [← List.map_id vs]
      exact List.map_congr_left (fun v hv => (hc v hv).symm)
    rw [← put_seen, ← this]
  | delete =>
    by_cases hv : vs = []
    · subst hv
      have hz : seen e (lower a) = [] ↔ e (lower a) = [] := List.map_eq_nil_iff
      show _ = (srvChange lower mo e ⟨.delete, a, []⟩).map seen
      by_cases h0 : e (lower a) = []
      · rw [show srvChange lower mo e ⟨.delete, a, []⟩ = .error .noSuchAttribute by simp [srvChange, h0],
          show srvChange lower (onBytes mo) (seen e) ⟨.delete, a, []⟩ = .error .noSuchAttribute by simp [srvChange, hz.2 h0]]
        rfl
      · rw [show srvChange lower mo e ⟨.delete, a, []⟩ = .ok (Entry.put lower e a []) by simp [srvChange, h0],
          show srvChange lower (onBytes mo) (seen e) ⟨.delete, a, []⟩ = .ok (Entry.put lower (seen e) a []) by simp [srvChange]; exact fun h => h0 (hz.1 h)]
        exact congrArg Except.ok (put_seen lower e a [])
    · simp only [srvChange, toBytes, List.map_eq_nil_iff]
      simp only [if_neg hv]
      have h1 : srvDelete (onBytes mo a) (seen e (lower a)) vs = _ := srvDelete_seen (mo a) vs (e (lower a))
      rw [h1]
      cases srvDelete (mo a) (e (lower a)) (vs.map (·.bytes)) with
      | error x => rfl
      | ok l =>
        simp only [Except.map]
        exact congrArg Except.ok (put_seen lower e a l)

theorem srvModify_seen (cs : List (Change AVal)) : ∀ (e : Spec.Entry Bytes), (∀ c ∈ cs, ∀ v ∈ c.vals, Canon v) →
    srvModify lower (onBytes mo) (seen e) cs = (srvModify lower mo e (cs.map toBytes)).map seen := by
  induction cs with
  | nil => intro e _; rfl
  | cons c cs ih =>
    intro e h
    simp only [srvModify, List.map_cons, srvChange_seen mo lower e c (h c (by simp))]
    cases srvChange lower mo e (toBytes c) with
    | error x => rfl
    | ok e' => exact ih e' (fun c hc => h c (List.mem_cons_of_mem _ hc))

end

/-! ## Sending a modify request -/
section
open Laurelin.Wire WireP WireR OverWire Spec.OverWireS
variable {V R S : Type} (lower : Str → Str) (mo : Str → Bytes → Bytes → Bool) (entry : S → Spec.Entry Bytes) (peer : Peer S) (env : Env V R)

theorem sendModify_step (dn : Str) (hc : Conforms lower mo dn entry peer) (l : Link Received.Decoded S) (hr : SessionP.Ready l.st) (rq : ModRequest AVal) (hdn : rq.dn = dn) :
    let x := sendModify codec (fun d => d.1.1) peer env l rq
    SessionP.Ready x.1.st ∧ ((x.2 = .ok () ∧ srvModify lower mo (entry l.peer) (rq.changes.map toBytes) = .ok (entry x.1.peer)) ∨
      ((∃ e, x.2 = .error e) ∧ entry x.1.peer = entry l.peer)) := by
  intro x
  subst hdn
  simp only [x, sendModify]
  cases hsend : send l.st.next (Call.modify rq).op env.ctrls with
  | none => exact ⟨ready_skip _ hr, .inr ⟨⟨_, rfl⟩, rfl⟩⟩
  | some bs =>
    obtain ⟨o, ho, hv, _, henc⟩ := c79_sent _ _ _ _ hsend
    cases ho
    have hop : Spec.Wire.Op.modifyRequest (utf8Enc rq.dn) (rq.changes.map (fun c => (Spec.Wire.modNumber c.op, Spec.Wire.ofAttr (c.attr, c.vals)))) =
        Spec.OverWireS.modifyOp rq.dn (rq.changes.map toBytes) := by
      simp only [Spec.OverWireS.modifyOp, List.map_map]
      rfl
    rw [hop] at hv henc
    obtain ⟨r, ⟨bss, hp, hne, hfl⟩, hcase⟩ := hc.modify l.peer bs l.st.next _ _ hv henc
    dsimp only
    generalize peer l.peer bs = p at hne hfl hcase ⊢
    obtain ⟨h0, hch, hab, hq⟩ := hr
    obtain ⟨ds, hds1, hds2, hds3⟩ := answered_decoded _ _ _ hp
    match ds, hds1, hds2, hds3 with
    | [ans], hds1, hds2, hds3 =>
      simp only [List.map_cons, List.map_nil, List.cons.injEq, and_true] at hds1
      have hmid : codec.mid ans = l.st.next := by simpa using hds3 ans (by simp)
      obtain ⟨s', r1, r2, r3, r4⟩ := SessionP.recvOne_last codec l.st.next ans hmid [] { l.st.sock with chunks := l.st.sock.chunks ++ p.2 } (by rw [hch]; exact hne)
        (by
          show (l.st.sock.chunks ++ p.2).flatten = _
          rw [hch, List.nil_append, List.nil_append, hfl, ← hds2]) nofun (hq _ (Nat.le_refl _)) hab
      obtain ⟨f1, f2, _⟩ := SessionP.finish_ends env.conn.reg env.own (.modify rq) trivial ⟨l.st.next, .modifyResponse r, none⟩ rfl
      simp only [Session.request, hsend, r1, hds1]
      refine ⟨⟨Nat.succ_pos _, r2, r3, fun j hj => ?_⟩, ?_⟩
      · rw [r4 j (Nat.le_of_succ_le hj)]
        exact hq j (Nat.le_of_succ_le hj)
      · rcases hcase with ⟨hz, hsrv⟩ | ⟨hz, hsrv⟩
        · left
          rw [f1 .done ⟨r, rfl, hz, rfl⟩]
          exact ⟨rfl, hsrv⟩
        · right
          rw [f2 ⟨r, rfl, hz⟩]
          exact ⟨⟨_, rfl⟩, hsrv⟩
    | [], hds1, _, _ => simp at hds1
    | _ :: _ :: _, hds1, _, _ => simp at hds1

end

/-! ## Calls on an object -/
section
open Laurelin.Wire WireP WireR OverWire Spec.OverWireS
variable {V R S : Type} (lower : Str → Str) (typeOf : TypeOf AVal) (mo : Str → Bytes → Bytes → Bool) (entry : S → Spec.Entry Bytes) (peer : Peer S)

/-- an object, its connection, and the server at the other end -/
structure World (S : Type) where
  obj : AttrsDict AVal
  link : Link Received.Decoded S

/-- a call on the object -/
def callOver (env : Env V R) (w : World S) : ObjCall AVal → World S × Except Err Unit
  | .modify mods => let r := modifyObj codec (fun d => d.1.1) peer env lower typeOf w.link w.obj mods; (⟨r.obj, r.link⟩, r.result)
  | .addAttrs new => let r := addAttrs codec (fun d => d.1.1) peer env lower typeOf w.link w.obj new; (⟨r.obj, r.link⟩, r.result)
  | .replaceAttrs new => let r := replaceAttrs codec (fun d => d.1.1) peer env lower typeOf w.link w.obj new; (⟨r.obj, r.link⟩, r.result)
  | .deleteAttrs del => let r := deleteAttrs codec (fun d => d.1.1) peer env lower typeOf w.link w.obj del; (⟨r.obj, r.link⟩, r.result)
  | .refresh attrs => let r := refreshObj codec (fun d => d.1.1) peer env lower w.link w.obj attrs; (⟨r.obj, r.link⟩, r.result)

/-- the object and the server's entry, with its values as the caller sees them -/
def World.session (w : World S) : Props.Session AVal := ⟨w.obj, seen (entry w.link.peer)⟩

/-- after a history of calls -/
def World.after (w : World S) : List (Env V R × ObjCall AVal) → World S
  | [] => w
  | (env, c) :: rest => World.after (callOver lower typeOf peer env w c).1 rest

variable (G : Str → AVal → Prop)

/-- every call of the history is for this DN, and clean at the moment it is made -/
def CleanOver (dn : Str) (w : World S) : List (Env V R × ObjCall AVal) → Prop
  | [] => True
  | (env, c) :: rest => env.obj.dn = dn ∧ CleanCall lower typeOf (onBytes mo) G (w.session entry) env.obj c ∧ CleanOver dn (callOver lower typeOf peer env w c).1 rest

/-- what is maintained -/
structure Good (w : World S) : Prop where
  ready : SessionP.Ready w.link.st
  view : View lower G (w.session entry)

theorem ldapModify_congr (unbound : Bool) (validators : List ((Str × List (Mod AVal) × Option (AttrsDict AVal)) → Except Err Unit)) (o : EmptyOpts) (ctrls : Except Err Unit)
    (srv srv' : ModRequest AVal → Except Err Unit) (dn : Str) (mods : List (Mod AVal)) (current : Option (AttrsDict AVal)) :
    (ldapModify unbound validators o ctrls srv dn mods current).sent = (ldapModify unbound validators o ctrls srv' dn mods current).sent ∧
    ((∀ rq ∈ (ldapModify unbound validators o ctrls srv dn mods current).sent, srv rq = srv' rq) →
      ldapModify unbound validators o ctrls srv dn mods current = ldapModify unbound validators o ctrls srv' dn mods current) := by
  simp only [ldapModify]
  split
  · split
    · exact ⟨rfl, fun _ => rfl⟩
    · split
      · exact ⟨rfl, fun _ => rfl⟩
      · split
        · exact ⟨rfl, fun _ => rfl⟩
        · split
          · split
            · exact ⟨rfl, fun _ => rfl⟩
            · exact ⟨rfl, fun h => by rw [h _ (by simp)]⟩
          · exact ⟨rfl, fun _ => rfl⟩
  · exact ⟨rfl, fun _ => rfl⟩

variable {lower typeOf mo entry peer G}

theorem clean_vals {s : Props.Session AVal} {o : EmptyOpts} {mods : List (Mod AVal)} (hG : ∀ a v, G a v → Spec.Wire.Shows v.bytes v) (hc : Clean lower (onBytes mo) G s o mods) :
    ∀ c ∈ mods.filterMap (wireChange o), ∀ v ∈ c.vals, Canon v := by
  rw [wire_meant o mods hc.noIgnored]
  intro c h v hv
  obtain ⟨md, hmd, rfl⟩ := List.mem_map.1 h
  exact shown_bytes v (hG _ v (hc.good md hmd v hv))

/-- one `modify` -/
theorem modify_over (hD : Decides typeOf (onBytes mo) G) (hf : FoldCompat lower (onBytes mo) G) (hG : ∀ a v, G a v → Spec.Wire.Shows v.bytes v) (env : Env V R)
    (hconf : Conforms lower mo env.obj.dn entry peer) (w : World S) (hw : Good lower entry G w) (mods : List (Mod AVal))
    (hc : Clean lower (onBytes mo) G (w.session entry) env.obj.opts mods) :
    let r := callOver lower typeOf peer env w (.modify mods)
    Good lower entry G r.1 ∧
    (r.2 = .ok () → srvModify lower (onBytes mo) (seen (entry w.link.peer)) (meant mods) = .ok (seen (entry r.1.link.peer)) ∧ ∀ md ∈ mods, Agrees lower (r.1.session entry) md.attr) ∧
    (∀ e, r.2 = .error e → r.1.obj = w.obj ∧ entry r.1.link.peer = entry w.link.peer) ∧
    (∀ attr, Agrees lower (w.session entry) attr → Agrees lower (r.1.session entry) attr) := by
  intro r
  obtain ⟨obj, link⟩ := w
  have hstep := c10_modify_step lower hD hf (fun _ _ => .error .osError) _ hw.view env.obj mods hc
  let srv := fun rq => (sendModify codec (fun d => d.1.1) peer env link rq).2
  let ans := answer lower (onBytes mo) (seen (entry link.peer))
  obtain ⟨g1, g2⟩ := ldapModify_congr env.obj.unbound env.obj.validators env.obj.opts env.obj.ctrls srv ans env.obj.dn mods (some obj)
  have hsent : ∀ srv, (env.obj.modify lower typeOf srv obj mods).2.sent = (ldapModify env.obj.unbound env.obj.validators env.obj.opts env.obj.ctrls srv env.obj.dn mods (some obj)).sent := by
    intro srv
    simp only [ObjEnv.modify, objModify]
    split <;> rfl
  have same : ldapModify env.obj.unbound env.obj.validators env.obj.opts env.obj.ctrls srv env.obj.dn mods (some obj) =
      ldapModify env.obj.unbound env.obj.validators env.obj.opts env.obj.ctrls ans env.obj.dn mods (some obj) →
      env.obj.modify lower typeOf srv obj mods = env.obj.modify lower typeOf ans obj mods := by
    intro h
    simp only [ObjEnv.modify, objModify, h]
  have hlink : r.1.link = (env.obj.modify lower typeOf srv obj mods).2.sent.foldl (fun l rq => (sendModify codec (fun d => d.1.1) peer env l rq).1) link := rfl
  have hobj : r.1.obj = (env.obj.modify lower typeOf srv obj mods).1 := rfl
  have hres : r.2 = (env.obj.modify lower typeOf srv obj mods).2.result := rfl
  have finish : env.obj.modify lower typeOf srv obj mods = env.obj.modify lower typeOf ans obj mods → SessionP.Ready r.1.link.st →
      seen (entry r.1.link.peer) = serve lower (onBytes mo) (seen (entry link.peer)) (env.obj.modify lower typeOf ans obj mods).2.sent → (∀ e, r.2 = .error e → entry r.1.link.peer = entry link.peer) →
      Good lower entry G r.1 ∧
      (r.2 = .ok () → srvModify lower (onBytes mo) (seen (entry link.peer)) (meant mods) = .ok (seen (entry r.1.link.peer)) ∧ ∀ md ∈ mods, Agrees lower (r.1.session entry) md.attr) ∧
      (∀ e, r.2 = .error e → r.1.obj = obj ∧ entry r.1.link.peer = entry link.peer) ∧
      (∀ attr, Agrees lower (World.session entry ⟨obj, link⟩) attr → Agrees lower (r.1.session entry) attr) := by
    intro h1 h2 h3 h4
    have hs : r.1.session entry = (Session.call lower typeOf (onBytes mo) (fun _ _ => .error .osError) ⟨obj, seen (entry link.peer)⟩ env.obj (.modify mods)).1 := by
      show (⟨r.1.obj, seen (entry r.1.link.peer)⟩ : Props.Session AVal) = _
      rw [h3, hobj, h1]
      rfl
    have hr : r.2 = (Session.call lower typeOf (onBytes mo) (fun _ _ => .error .osError) ⟨obj, seen (entry link.peer)⟩ env.obj (.modify mods)).2 := by
      rw [hres, h1]; rfl
    obtain ⟨k1, k2, k3, k4, _⟩ := hstep
    refine ⟨⟨h2, by rw [hs]; exact k1⟩, fun hok => ?_, fun e he => ⟨?_, h4 e he⟩, fun a ha => by rw [hs]; exact k2 a ha⟩
    · have := k3 (hr ▸ hok)
      refine ⟨?_, by rw [hs]; exact this.2⟩
      rw [show seen (entry r.1.link.peer) = (r.1.session entry).entry from rfl, hs]
      exact this.1
    · rw [show r.1.obj = (r.1.session entry).obj from rfl, hs]
      exact congrArg (fun s : Props.Session AVal => s.obj) (k4 e (hr ▸ he))
  rcases c08_at_most_once env.obj.unbound env.obj.validators env.obj.opts env.obj.ctrls srv env.obj.dn mods (some obj) with h0 | ⟨cs, h0, _, hrs, _⟩
  · have heq := same (g2 (by rw [h0]; nofun))
    have hl : r.1.link = link := by rw [hlink, hsent, h0]; rfl
    refine finish heq (by rw [hl]; exact hw.ready) ?_ (fun _ _ => by rw [hl])
    rw [hl, hsent, ← g1, h0]
    rfl
  · obtain ⟨p1, p2⟩ := sendModify_step lower mo entry peer env _ hconf link hw.ready ⟨env.obj.dn, cs⟩ rfl
    have hl : r.1.link = (sendModify codec (fun d => d.1.1) peer env link ⟨env.obj.dn, cs⟩).1 := by rw [hlink, hsent, h0]; rfl
    rw [← hl] at p1 p2
    have hcs : ∀ c ∈ cs, ∀ v ∈ c.vals, Canon v := by
      have := sent_changes lower (typeOf := typeOf) env.obj srv obj mods hc.constructible ⟨env.obj.dn, cs⟩ (by rw [hsent, h0]; simp)
      simp only at this
      rw [this]
      exact clean_vals hG hc
    have hcomm := srvModify_seen mo lower cs (entry link.peer) hcs
    rcases p2 with ⟨hok, hsrv⟩ | ⟨⟨e, he⟩, hsame⟩
    · rw [hsrv] at hcomm
      have hans : ans ⟨env.obj.dn, cs⟩ = .ok () := by
        simp only [ans, answer, hcomm, Except.map]
      have heq := same (g2 (by
        rw [h0]
        intro rq hrq
        rw [List.mem_singleton.1 hrq, hans]
        exact hok))
      have hserve : seen (entry r.1.link.peer) = serve lower (onBytes mo) (seen (entry link.peer)) (env.obj.modify lower typeOf ans obj mods).2.sent := by
        rw [hsent, ← g1, h0]
        simp only [serve, hcomm, Except.map]
      refine finish heq p1 hserve (fun e he => ?_)
      exfalso
      have hlm : (ldapModify env.obj.unbound env.obj.validators env.obj.opts env.obj.ctrls ans env.obj.dn mods (some obj)).result = .ok () := by
        rw [← g2 (by
          rw [h0]
          intro rq hrq
          rw [List.mem_singleton.1 hrq, hans]
          exact hok), hrs]
        exact hok
      have := hstep.2.2.2.2 hlm
      rw [hres, heq] at he
      have h5 : (Session.call lower typeOf (onBytes mo) (fun _ _ => .error .osError) ⟨obj, seen (entry link.peer)⟩ env.obj (.modify mods)).2 = .error e := he
      rw [show (⟨obj, seen (entry link.peer)⟩ : Props.Session AVal) = World.session entry ⟨obj, link⟩ from rfl, this] at h5
      cases h5
    · have hm : env.obj.modify lower typeOf srv obj mods = (obj, ldapModify env.obj.unbound env.obj.validators env.obj.opts env.obj.ctrls srv env.obj.dn mods (some obj)) := by
        simp only [ObjEnv.modify, objModify]
        rw [hrs, show srv ⟨env.obj.dn, cs⟩ = .error e from he]
      have ho : r.1.obj = obj := by rw [hobj, hm]
      refine ⟨⟨p1, ?_⟩, fun hok => ?_, fun _ _ => ⟨ho, hsame⟩, fun a ha => ?_⟩
      · show View lower G ⟨r.1.obj, seen (entry r.1.link.peer)⟩
        rw [ho, hsame]
        exact hw.view
      · rw [hres, hm, hrs, show srv ⟨env.obj.dn, cs⟩ = .error e from he] at hok
        cases hok
      · show Agrees lower ⟨r.1.obj, seen (entry r.1.link.peer)⟩ a
        rw [ho, hsame]
        exact ha

theorem data_distinct (got : PDict Str (List AVal)) : ∀ d : AttrsDict AVal, (d.data.map Prod.fst ++ got.map Prod.fst).Nodup → (CIDict.update lower d got).data = d.data ++ got := by
  have hset : ∀ (d : PDict Str (List AVal)) k v, k ∉ d.map Prod.fst → d.set k v = d ++ [(k, v)] := by
    intro d k v
    induction d with
    | nil => intro _; rfl
    | cons q d ih =>
      intro h
      simp only [List.map_cons, List.mem_cons, not_or] at h
      obtain ⟨a, w⟩ := q
      rw [PDict.set, if_neg (fun e => h.1 e.symm), ih h.2]; rfl
  induction got with
  | nil => intro d _; simp [CIDict.update]
  | cons p l ih =>
    intro d h
    have hk : p.1 ∉ d.data.map Prod.fst := by
      intro hm
      rw [List.nodup_append] at h
      exact h.2.2 p.1 hm p.1 (by simp) rfl
    have h1 : (CIDict.setItem lower d p.1 p.2).data = d.data ++ [p] := hset d.data _ _ hk
    have := ih (CIDict.setItem lower d p.1 p.2) (by rw [h1]; simpa using h)
    rw [h1] at this
    simp only [CIDict.update, List.foldl_cons] at this ⊢
    rw [this]
    simp

/-- updating from the object that `get` made of an entry is updating from the entry -/
theorem updateCI_entry (d : AttrsDict AVal) (got : PDict Str (List AVal)) (h : (got.map (fun p => lower p.1)).Nodup) :
    CIDict.updateCI lower d (CIDict.update lower CIDict.empty got) = .ok (CIDict.update lower d got) := by
  have hn : (got.map Prod.fst).Nodup := by
    rw [show got.map (fun p => lower p.1) = (got.map Prod.fst).map lower by rw [List.map_map]; rfl] at h
    exact List.Pairwise.of_map _ (fun a b hab hc => hab (by rw [hc])) h
  have hdata : (CIDict.update lower (CIDict.empty : AttrsDict AVal) got).data = got := by
    have := data_distinct (lower := lower) got CIDict.empty (by simpa [CIDict.empty] using hn)
    simpa [CIDict.empty] using this
  have hinj : ∀ (l : List (Str × List AVal)), (l.map (fun p => lower p.1)).Nodup → ∀ a ∈ l.map Prod.fst, ∀ b ∈ l.map Prod.fst, lower a = lower b → a = b := by
    intro l
    induction l with
    | nil => intro _ a ha; simp at ha
    | cons p l ih =>
      intro h a ha b hb hab
      simp only [List.map_cons, List.nodup_cons] at h
      have key : ∀ c, c ∈ l.map Prod.fst → lower p.1 ≠ lower c := by
        intro c hc he
        obtain ⟨q, hq, rfl⟩ := List.mem_map.1 hc
        exact h.1 (he ▸ List.mem_map.2 ⟨q, hq, rfl⟩)
      rcases List.mem_cons.1 ha with rfl | ha <;> rcases List.mem_cons.1 hb with rfl | hb
      · rfl
      · exact absurd hab (key b hb)
      · exact absurd hab.symm (key a ha)
      · exact ih h.2 a ha b hb hab
  have hself := (CIDict.self_update lower got (CIDict.empty : AttrsDict AVal) (got.map Prod.fst) (fun k hk => by simp [CIDict.empty, PDict.keys] at hk)
    (fun k hk => by simp [CIDict.empty, PDict.keys] at hk) (hinj got h) (fun k hk => hk)).1
  have hget : ∀ kv ∈ got, CIDict.getItem lower (CIDict.update lower (CIDict.empty : AttrsDict AVal) got) kv.1 = .ok kv.2 := by
    intro kv hkv
    have h1 := hself kv.1 (by rw [hdata]; exact List.mem_map.2 ⟨kv, hkv, rfl⟩)
    have h2 : PDict.get? (CIDict.update lower (CIDict.empty : AttrsDict AVal) got).data kv.1 = some kv.2 := by
      rw [hdata]
      exact (PDict.mem_iff_get? got hn kv.1 kv.2).1 hkv
    simp only [CIDict.getItem, h1, h2]
  have hfold : ∀ (l : List (Str × List AVal)), (∀ kv ∈ l, kv ∈ got) → ∀ acc : AttrsDict AVal, l.foldlM (fun acc kv => do
      let v ← CIDict.getItem lower (CIDict.update lower (CIDict.empty : AttrsDict AVal) got) kv.1
      pure (CIDict.setItem lower acc kv.1 v)) acc = (Except.ok (l.foldl (fun acc kv => CIDict.setItem lower acc kv.1 kv.2) acc) : Except Err (AttrsDict AVal)) := by
    intro l
    induction l with
    | nil => intro _ acc; rfl
    | cons kv l ih =>
      intro hl acc
      rw [List.foldlM_cons, hget kv (hl kv (by simp))]
      simp only [bind, Except.bind, pure, Except.pure, List.foldl_cons]
      exact ih (fun k hk => hl k (List.mem_cons_of_mem _ hk)) _
  rw [CIDict.updateCI, hdata]
  exact hfold got (fun _ h => h) d

theorem refresh_over (env : Env V R) (hconf : Conforms lower mo env.obj.dn entry peer) (w : World S) (hw : Good lower entry G w) (attrs : List Str) :
    let x := OverWire.refresh codec (fun d => d.1.1) peer env lower w.link w.obj attrs
    SessionP.Ready x.1.st ∧ entry x.1.peer = entry w.link.peer ∧
    ∀ d', x.2 = .ok d' → ∃ got, FetchOf lower (seen (entry w.link.peer)) attrs got ∧ d' = CIDict.update lower w.obj got := by
  intro x
  obtain ⟨h1, h2, h3⟩ := fetch_step lower mo entry peer env _ hconf rfl w.link hw.ready attrs
  simp only [x, OverWire.refresh]
  revert h1 h2 h3
  rcases fetch codec (fun d => d.1.1) peer env w.link attrs with ⟨l', e | got⟩
  · intro h1 h2 _
    exact ⟨h1, h2, nofun⟩
  · intro h1 h2 h3
    obtain ⟨k1, k2⟩ := h3 got rfl
    refine ⟨h1, h2, fun d' hd => ?_⟩
    simp only [updateCI_entry w.obj got k1, Except.ok.injEq] at hd
    exact ⟨got, k2, hd.symm⟩

theorem missing_over (env : Env V R) (hconf : Conforms lower mo env.obj.dn entry peer) (w : World S) (hw : Good lower entry G w) (attrs : List Str) :
    let x := OverWire.refreshMissing codec (fun d => d.1.1) peer env lower w.link w.obj attrs
    SessionP.Ready x.1.st ∧ entry x.1.peer = entry w.link.peer ∧
    ∀ d', x.2 = .ok d' → View lower G ⟨d', seen (entry w.link.peer)⟩ ∧ ∀ a ∈ attrs, Agrees lower ⟨d', seen (entry w.link.peer)⟩ a := by
  classical
  intro x
  obtain ⟨h1, h2, h3⟩ := refresh_over env hconf w hw (attrs.filter (fun a => !AttrsDict.has lower w.obj a))
  by_cases hlen : (attrs.filter (fun a => !AttrsDict.has lower w.obj a)).length > 0
  · have hx : x = OverWire.refresh codec (fun d => d.1.1) peer env lower w.link w.obj (attrs.filter (fun a => !AttrsDict.has lower w.obj a)) := by
      simp only [x, OverWire.refreshMissing, if_pos hlen]
    rw [hx]
    refine ⟨h1, h2, fun d' hd => ?_⟩
    obtain ⟨got, hg, rfl⟩ := h3 d' hd
    let read : Spec.Entry AVal → List Str → Except Err (PDict Str (List AVal)) := fun e as =>
      if e = seen (entry w.link.peer) ∧ as = attrs.filter (fun a => !AttrsDict.has lower w.obj a) then .ok got else .error .osError
    have hread : ∀ e as g, read e as = .ok g → FetchOf lower e as g := by
      intro e as g h
      simp only [read] at h
      split at h
      · rename_i hc
        cases h
        rw [hc.1, hc.2]
        exact hg
      · cases h
    have := refreshMissing_step lower (w.session entry) hw.view attrs read hread (CIDict.update lower w.obj got) (by
      show Laurelin.refreshMissing lower (read (seen (entry w.link.peer))) w.obj attrs = _
      simp only [Laurelin.refreshMissing, if_pos hlen, Laurelin.refresh, read, and_self, if_true])
    exact ⟨this.1, this.2.2⟩
  · have hx : x = (w.link, .ok w.obj) := by
      simp only [x, OverWire.refreshMissing, if_neg hlen]
    rw [hx]
    refine ⟨hw.ready, rfl, fun d' hd => ?_⟩
    cases hd
    have := refreshMissing_step lower (w.session entry) hw.view attrs (fun _ _ => .error .osError) nofun w.obj (by
      show Laurelin.refreshMissing lower _ w.obj attrs = _
      simp only [Laurelin.refreshMissing, if_neg hlen])
    exact ⟨this.1, this.2.2⟩

/-- the attributes to be changed are there, or have been fetched -/
theorem known_over (env : Env V R) (hconf : Conforms lower mo env.obj.dn entry peer) (w : World S) (hw : Good lower entry G w) (attrs : List Str)
    (hk : env.obj.strict = true → ∀ a ∈ attrs, Agrees lower (w.session entry) a) :
    let x := prepare codec (fun d => d.1.1) peer env lower w.link w.obj attrs
    SessionP.Ready x.1.st ∧ entry x.1.peer = entry w.link.peer ∧
    ∀ d', x.2 = .ok d' → View lower G ⟨d', seen (entry w.link.peer)⟩ ∧ ∀ a ∈ attrs, Agrees lower ⟨d', seen (entry w.link.peer)⟩ a := by
  intro x
  by_cases hs : env.obj.strict = true
  · have hx : x = (w.link, .ok w.obj) := by simp only [x, prepare, if_pos hs]
    rw [hx]
    refine ⟨hw.ready, rfl, fun d' hd => ?_⟩
    cases hd
    exact ⟨hw.view, hk hs⟩
  · have hx : x = OverWire.refreshMissing codec (fun d => d.1.1) peer env lower w.link w.obj attrs := by simp only [x, prepare, if_neg hs]
    rw [hx]
    exact missing_over env hconf w hw attrs

/-- one call of any kind -/
theorem call_over (hD : Decides typeOf (onBytes mo) G) (hf : FoldCompat lower (onBytes mo) G) (hG : ∀ a v, G a v → Spec.Wire.Shows v.bytes v) (env : Env V R)
    (hconf : Conforms lower mo env.obj.dn entry peer) (w : World S) (hw : Good lower entry G w) (c : ObjCall AVal) (hc : CleanCall lower typeOf (onBytes mo) G (w.session entry) env.obj c) :
    Good lower entry G (callOver lower typeOf peer env w c).1 := by
  cases c with
  | modify mods => exact (modify_over hD hf hG env hconf w hw mods hc).1
  | refresh attrs =>
    obtain ⟨h1, h2, h3⟩ := refresh_over env hconf w hw attrs
    simp only [callOver, refreshObj]
    revert h1 h2 h3
    rcases OverWire.refresh codec (fun d => d.1.1) peer env lower w.link w.obj attrs with ⟨l', e | d'⟩
    · intro h1 h2 _
      refine ⟨h1, ?_⟩
      show View lower G ⟨w.obj, seen (entry l'.peer)⟩
      rw [h2]; exact hw.view
    · intro h1 h2 h3
      obtain ⟨got, hg, rfl⟩ := h3 d' rfl
      refine ⟨h1, ?_⟩
      show View lower G ⟨_, seen (entry l'.peer)⟩
      rw [h2]
      exact (c10_refresh_step lower (w.session entry) hw.view attrs got hg).1
  | replaceAttrs new =>
    have hml : modlist .replace (new.map (fun kv => (kv.1, RawVals.vals kv.2))) = .ok (new.map (fun kv => ⟨.replace, kv.1, kv.2⟩)) := by
      rw [(c07_modlist _ _).2 (by simp)]
      simp [normalise]
    have := (modify_over hD hf hG env hconf w hw _ hc).1
    simp only [callOver, OverWire.replaceAttrs, hml] at this ⊢
    exact this
  | addAttrs new =>
    obtain ⟨h1, h2, h3, h4⟩ := hc
    obtain ⟨k1, k2, k3⟩ := known_over env hconf w hw (new.map Prod.fst) (fun hs a ha => by
      obtain ⟨kv, hkv, rfl⟩ := List.mem_map.1 ha
      exact h4 hs kv hkv)
    simp only [callOver, OverWire.addAttrs]
    revert k1 k2 k3
    rcases prepare codec (fun d => d.1.1) peer env lower w.link w.obj (new.map Prod.fst) with ⟨l1, e | d1⟩
    · intro k1 k2 _
      refine ⟨k1, ?_⟩
      show View lower G ⟨w.obj, seen (entry l1.peer)⟩
      rw [k2]; exact hw.view
    · intro k1 k2 k3
      obtain ⟨hv1, hk1⟩ := k3 d1 rfl
      have hw1 : Good lower entry G ⟨d1, l1⟩ := ⟨k1, by show View lower G ⟨d1, seen (entry l1.peer)⟩; rw [k2]; exact hv1⟩
      have hmod := c05_add_modlist lower typeOf (onBytes mo) G hD d1 (view_good lower hv1) new h1 h2 h3
      dsimp only
      cases hmods : addModlist lower typeOf d1 (new.map (fun kv => (kv.1, Vals.list kv.2))) with
      | error e => exact hw1
      | ok mods =>
        have hm2 : mods = addWanted lower (onBytes mo) d1 new := by
          by_cases hb : ∃ kv ∈ new, kv.2 = [] ∧ AttrsDict.getAttr lower d1 kv.1 = []
          · rw [hmod.2 hb] at hmods; simp at hmods
          · rw [hmod.1 (fun kv hkv he hx => hb ⟨kv, hkv, he, hx⟩)] at hmods
            simpa using hmods.symm
        subst hm2
        exact (modify_over hD hf hG env hconf ⟨d1, l1⟩ hw1 _ (clean_addWanted lower _ _ _ h3 (fun kv hkv => by
          show Agrees lower ⟨d1, seen (entry l1.peer)⟩ kv.1
          rw [k2]
          exact hk1 _ (List.mem_map_of_mem hkv)))).1
  | deleteAttrs del =>
    obtain ⟨h1, h2, h3, h4, h5⟩ := hc
    obtain ⟨k1, k2, k3⟩ := known_over env hconf w hw (del.map Prod.fst) (fun hs a ha => by
      obtain ⟨kv, hkv, rfl⟩ := List.mem_map.1 ha
      exact h4 hs kv hkv)
    simp only [callOver, OverWire.deleteAttrs]
    revert k1 k2 k3
    rcases prepare codec (fun d => d.1.1) peer env lower w.link w.obj (del.map Prod.fst) with ⟨l1, e | d1⟩
    · intro k1 k2 _
      refine ⟨k1, ?_⟩
      show View lower G ⟨w.obj, seen (entry l1.peer)⟩
      rw [k2]; exact hw.view
    · intro k1 k2 k3
      obtain ⟨hv1, hk1⟩ := k3 d1 rfl
      have hw1 : Good lower entry G ⟨d1, l1⟩ := ⟨k1, by show View lower G ⟨d1, seen (entry l1.peer)⟩; rw [k2]; exact hv1⟩
      have hmod := c06_delete_modlist lower typeOf (onBytes mo) G hD d1 (view_good lower hv1) del h1 h2
        (fun kv hkv l hl v hv => h3 kv hkv v (by rw [hl]; exact hv))
      simp only [hmod]
      exact (modify_over hD hf hG env hconf ⟨d1, l1⟩ hw1 _ (clean_delWanted lower _ _ _ h3 (fun kv hkv => by
        show Agrees lower ⟨d1, seen (entry l1.peer)⟩ kv.1
        rw [k2]
        exact hk1 _ (List.mem_map_of_mem hkv)) h5)).1

end

end OverWireP

section
open OverWireP Spec.OverWireS
variable {V R S : Type} {lower : Str → Str} {typeOf : TypeOf AVal} {mo : Str → Bytes → Bytes → Bool} {entry : S → Spec.Entry Bytes} {peer : OverWire.Peer S} {G : Str → AVal → Prop}

/-- the values that the object shows for an attribute are the server's octets, in the server's order: as text where they are UTF-8 -/
def ShowsExactly (lower : Str → Str) (e : Spec.Entry Bytes) (d : AttrsDict AVal) (attr : Str) : Prop :=
  Pairwise2 Spec.Wire.Shows (e (lower attr)) (AttrsDict.getAttr lower d attr)

theorem OverWireP.shows_map (l : List Bytes) : Pairwise2 Spec.Wire.Shows l (l.map WireP.shown) := by
  induction l with
  | nil => exact .nil
  | cons b l ih => exact .cons (WireP.shown_ok b) ih

theorem OverWireP.agrees_shows (w : World S) (attr : Str) (h : Agrees lower (w.session entry) attr) : ShowsExactly lower (entry w.link.peer) w.obj attr := by
  have h : AttrsDict.getAttr lower w.obj attr = seen (entry w.link.peer) (lower attr) := h
  rw [ShowsExactly, h]
  exact shows_map _

theorem OverWireP.seen_inj (e e' : Spec.Entry Bytes) (h : seen e = seen e') : e = e' := by
  funext x
  have h := congrArg (List.map AVal.bytes) (congrFun h x)
  simp only [seen, List.map_map] at h
  have hid : (AVal.bytes ∘ WireP.shown) = id := funext (fun b => bytes_shown b)
  simpa [hid] using h

theorem OverWireP.good_after (hD : Decides typeOf (onBytes mo) G) (hf : FoldCompat lower (onBytes mo) G) (hG : ∀ a v, G a v → Spec.Wire.Shows v.bytes v) (dn : Str)
    (hconf : Conforms lower mo dn entry peer) (hist : List (OverWire.Env V R × ObjCall AVal)) :
    ∀ w : World S, Good lower entry G w → CleanOver lower typeOf mo entry peer G dn w hist → Good lower entry G (World.after lower typeOf peer w hist) := by
  induction hist with
  | nil => exact fun w hw _ => hw
  | cons x rest ih =>
    obtain ⟨env, c⟩ := x
    intro w hw ⟨h1, h2, h3⟩
    exact ih _ (call_over hD hf hG env (h1 ▸ hconf) w hw c h2) h3

theorem OverWireP.good_new (s0 : S) (hs : GoodEntry lower G (seen (entry s0))) : Good lower entry G (⟨CIDict.empty, ⟨Session.St.init, s0⟩⟩ : World S) := by
  refine ⟨SessionP.ready_init, CIDict.inv_empty lower, hs, fun attr h => absurd ?_ h⟩
  show AttrsDict.getAttr lower CIDict.empty attr = []
  rw [getAttr_abs lower _ (CIDict.inv_empty lower)]
  show (CIDict.abs CIDict.empty (lower attr)).getD [] = []
  rw [CIDict.abs_empty]
  rfl

theorem OverWireP.modify_bytes (hD : Decides typeOf (onBytes mo) G) (hf : FoldCompat lower (onBytes mo) G) (hG : ∀ a v, G a v → Spec.Wire.Shows v.bytes v) (env : OverWire.Env V R)
    (hconf : Conforms lower mo env.obj.dn entry peer) (w : World S) (hw : Good lower entry G w) (mods : List (Mod AVal)) (hc : Clean lower (onBytes mo) G (w.session entry) env.obj.opts mods)
    (hok : (callOver lower typeOf peer env w (.modify mods)).2 = .ok ()) :
    srvModify lower mo (entry w.link.peer) ((meant mods).map toBytes) = .ok (entry (callOver lower typeOf peer env w (.modify mods)).1.link.peer) := by
  obtain ⟨_, h2, h3⟩ := modify_over hD hf hG env hconf w hw mods hc
  have k1 := (h2 hok).1
  have hcan : ∀ c ∈ meant mods, ∀ v ∈ c.vals, Canon v := by
    intro c h v hv
    obtain ⟨md, hmd, rfl⟩ := List.mem_map.1 h
    exact shown_bytes v (hG _ v (hc.good md hmd v hv))
  rw [srvModify_seen mo lower (meant mods) _ hcan] at k1
  cases hm : srvModify lower mo (entry w.link.peer) ((meant mods).map toBytes) with
  | error x => rw [hm] at k1; cases k1
  | ok e' =>
    rw [hm] at k1
    exact congrArg Except.ok (seen_inj _ _ (Except.ok.inj k1))

/-! ### what an accepted request does, attribute by attribute -/

theorem OverWireP.srvAdd_ok (m : Bytes → Bytes → Bool) (vs : List Bytes) : ∀ cur l, srvAdd m cur vs = .ok l → l = cur ++ vs := by
  induction vs with
  | nil => intro cur l h; cases h; simp
  | cons v vs ih =>
    intro cur l h
    simp only [srvAdd] at h
    split at h
    · cases h
    · rw [ih _ _ h]; simp

theorem OverWireP.srvDelete_ok (m : Bytes → Bytes → Bool) (vs : List Bytes) : ∀ cur l, srvDelete m cur vs = .ok l → l = without m cur vs := by
  induction vs with
  | nil => intro cur l h; cases h; rfl
  | cons v vs ih =>
    intro cur l h
    simp only [srvDelete] at h
    split at h
    · exact ih _ _ h
    · cases h

/-- one change on the values of its attribute -/
def OverWireP.one (mo : Str → Bytes → Bytes → Bool) (c : Change Bytes) (cur : List Bytes) : List Bytes :=
  match c.op with
  | .add => cur ++ c.vals
  | .replace => c.vals
  | .delete => if c.vals = [] then [] else without (mo c.attr) cur c.vals

theorem OverWireP.srvChange_one (e e' : Spec.Entry Bytes) (c : Change Bytes) (h : srvChange lower mo e c = .ok e') : e' = Entry.put lower e c.attr (one mo c (e (lower c.attr))) := by
  obtain ⟨op, a, vs⟩ := c
  cases op with
  | add =>
    simp only [srvChange] at h
    split at h
    · rename_i l hl
      cases h
      rw [srvAdd_ok _ _ _ _ hl]; rfl
    · cases h
  | replace =>
    simp only [srvChange] at h
    cases h; rfl
  | delete =>
    simp only [srvChange] at h
    by_cases hv : vs = []
    · subst hv
      simp only [if_true] at h
      split at h
      · cases h
      · cases h; rfl
    · simp only [if_neg hv] at h
      split at h
      · rename_i l hl
        cases h
        rw [srvDelete_ok _ _ _ _ hl]
        simp only [one, if_neg hv]
      · cases h

theorem OverWireP.srvModify_each (cs : List (Change Bytes)) : ∀ e e', srvModify lower mo e cs = .ok e' → (cs.map (fun c => lower c.attr)).Nodup →
    (∀ c ∈ cs, e' (lower c.attr) = one mo c (e (lower c.attr))) ∧ ∀ x, (∀ c ∈ cs, lower c.attr ≠ x) → e' x = e x := by
  induction cs with
  | nil => intro e e' h _; cases h; exact ⟨nofun, fun _ _ => rfl⟩
  | cons c cs ih =>
    intro e e' h hn
    simp only [List.map_cons, List.nodup_cons] at hn
    simp only [srvModify] at h
    cases h1 : srvChange lower mo e c with
    | error x => rw [h1] at h; cases h
    | ok e1 =>
      rw [h1] at h
      obtain ⟨g1, g2⟩ := ih e1 e' h hn.2
      have hp := srvChange_one e e1 c h1
      subst hp
      have hput : ∀ x, x ≠ lower c.attr → Entry.put lower e c.attr (one mo c (e (lower c.attr))) x = e x := fun x hx => by simp only [Entry.put, if_neg hx]
      have hnot : ∀ d ∈ cs, lower d.attr ≠ lower c.attr := fun d hd he => hn.1 (he ▸ List.mem_map.2 ⟨d, hd, rfl⟩)
      refine ⟨fun d hd => ?_, fun x hx => ?_⟩
      · rcases List.mem_cons.1 hd with rfl | hd
        · rw [g2 _ hnot]
          simp only [Entry.put, if_true]
        · rw [g1 d hd, hput _ (hnot d hd)]
      · rw [g2 x (fun d hd => hx d (List.mem_cons_of_mem _ hd)), hput x (fun h => hx c (by simp) h.symm)]

theorem OverWireP.any_shown (e : Spec.Entry Bytes) (d : AttrsDict AVal) (a : Str) (h : AttrsDict.getAttr lower d a = seen e (lower a)) (v : AVal) :
    knows lower (onBytes mo) d a v = (e (lower a)).any (fun x => mo a x v.bytes) := by
  rw [knows, h]
  exact any_seen (mo a) (e (lower a)) v

theorem OverWireP.filter_bytes (p : Bytes → Bool) (vs : List AVal) : (vs.filter (fun v => p v.bytes)).map AVal.bytes = (vs.map AVal.bytes).filter p := by
  induction vs with
  | nil => rfl
  | cons v vs ih =>
    simp only [List.filter_cons, List.map_cons]
    split <;> simp_all

/-- the changes that `add_attrs` and `delete_attrs` ask for are about attributes named, each once -/
theorem OverWireP.wanted_nodup {A : Type} (named : List (Str × A)) (f : Str × A → Option (Mod AVal)) (hf : ∀ kv md, f kv = some md → md.attr = kv.1) (hn : (named.map (fun kv => lower kv.1)).Nodup) :
    (((meant (named.filterMap f)).map toBytes).map (fun c => lower c.attr)).Nodup := by
  have : ((meant (named.filterMap f)).map toBytes).map (fun c => lower c.attr) = (named.filterMap f).map (fun md => lower md.attr) := by
    simp only [meant, List.map_map]; rfl
  rw [this]
  induction named with
  | nil => exact List.nodup_nil
  | cons kv named ih =>
    simp only [List.map_cons, List.nodup_cons] at hn
    rw [List.filterMap_cons]
    cases h : f kv with
    | none => exact ih hn.2 (by simp only [meant, List.map_map]; rfl)
    | some md =>
      simp only [List.map_cons, List.nodup_cons]
      refine ⟨fun hm => hn.1 ?_, ih hn.2 (by simp only [meant, List.map_map]; rfl)⟩
      obtain ⟨md', hmd', he⟩ := List.mem_map.1 hm
      obtain ⟨kv', hkv', hk'⟩ := List.mem_filterMap.1 hmd'
      exact List.mem_map.2 ⟨kv', hkv', by rw [← hf _ _ hk', ← hf _ _ h, he]⟩

/-- what an accepted request does to the attributes named: those for which nothing is asked keep their values -/
theorem OverWireP.becomes {A : Type} (named : List (Str × A)) (f : Str × A → Option (Mod AVal)) (hf : ∀ kv md, f kv = some md → md.attr = kv.1) (hn : (named.map (fun kv => lower kv.1)).Nodup)
    (e e' : Spec.Entry Bytes) (h : srvModify lower mo e ((meant (named.filterMap f)).map toBytes) = .ok e') (g : Str → A → List Bytes → List Bytes)
    (hsome : ∀ kv ∈ named, ∀ md, f kv = some md → one mo (toBytes ⟨md.op, md.attr, valsList md.vals⟩) (e (lower kv.1)) = g kv.1 kv.2 (e (lower kv.1)))
    (hnone : ∀ kv ∈ named, f kv = none → g kv.1 kv.2 (e (lower kv.1)) = e (lower kv.1)) : Becomes lower e e' named g := by
  obtain ⟨h1, h2⟩ := srvModify_each _ _ _ h (wanted_nodup named f hf hn)
  have hmem : ∀ c ∈ (meant (named.filterMap f)).map toBytes, ∃ kv ∈ named, ∃ md, f kv = some md ∧ c = toBytes ⟨md.op, md.attr, valsList md.vals⟩ := by
    intro c hc
    simp only [meant, List.map_map, List.mem_map, List.mem_filterMap] at hc
    obtain ⟨md, ⟨kv, hkv, hm⟩, rfl⟩ := hc
    exact ⟨kv, hkv, md, hm, rfl⟩
  have hdist : ∀ (l : List (Str × A)), (l.map (fun kv => lower kv.1)).Nodup → ∀ kv ∈ l, ∀ kv' ∈ l, lower kv.1 = lower kv'.1 → kv = kv' := by
    intro l
    induction l with
    | nil => nofun
    | cons p l ih =>
      intro hn kv hkv kv' hkv' he
      simp only [List.map_cons, List.nodup_cons] at hn
      rcases List.mem_cons.1 hkv with rfl | k1 <;> rcases List.mem_cons.1 hkv' with rfl | k2
      · rfl
      · exact absurd (List.mem_map.2 ⟨kv', k2, he.symm⟩) hn.1
      · exact absurd (List.mem_map.2 ⟨kv, k1, he⟩) hn.1
      · exact ih hn.2 kv k1 kv' k2 he
  refine ⟨fun kv hkv => ?_, fun x hx => h2 x (fun c hc => ?_)⟩
  · cases hm : f kv with
    | some md =>
      have := h1 (toBytes ⟨md.op, md.attr, valsList md.vals⟩) (by
        simp only [meant, List.map_map, List.mem_map, List.mem_filterMap]
        exact ⟨md, ⟨kv, hkv, hm⟩, rfl⟩)
      rw [← hsome kv hkv md hm]
      have ha : (toBytes ⟨md.op, md.attr, valsList md.vals⟩).attr = kv.1 := hf _ _ hm
      rw [ha] at this
      exact this
    | none =>
      rw [hnone kv hkv hm]
      refine h2 _ (fun c hc he => ?_)
      obtain ⟨kv', hkv', md, hmd, rfl⟩ := hmem c hc
      have : lower kv'.1 = lower kv.1 := by rw [← hf _ _ hmd]; exact he
      have := hdist named hn _ hkv' _ hkv this
      subst this
      rw [hm] at hmd; cases hmd
  · obtain ⟨kv', hkv', md, hmd, rfl⟩ := hmem c hc
    show lower md.attr ≠ x
    rw [hf _ _ hmd]
    exact hx kv' hkv'

theorem OverWireP.add_becomes (e e' : Spec.Entry Bytes) (d1 : AttrsDict AVal) (new : List (Str × List AVal)) (hn : (new.map (fun kv => lower kv.1)).Nodup)
    (hk1 : ∀ kv ∈ new, AttrsDict.getAttr lower d1 kv.1 = seen e (lower kv.1)) (hb : srvModify lower mo e ((meant (addWanted lower (onBytes mo) d1 new)).map toBytes) = .ok e') :
    Becomes lower e e' new (fun a vs cur => withAdded (mo a) cur (vs.map AVal.bytes)) := by
  have hagree : ∀ kv ∈ new, ∀ v, knows lower (onBytes mo) d1 kv.1 v = (e (lower kv.1)).any (fun x => mo kv.1 x v.bytes) :=
    fun kv hkv v => any_shown _ _ _ (hk1 kv hkv) v
  have hfil : ∀ kv ∈ new, (kv.2.filter (fun v => !knows lower (onBytes mo) d1 kv.1 v)).map AVal.bytes =
      (kv.2.map AVal.bytes).filter (fun v => !(e (lower kv.1)).any (fun x => mo kv.1 x v)) := by
    intro kv hkv
    rw [← filter_bytes (fun v => !(e (lower kv.1)).any (fun x => mo kv.1 x v))]
    congr 2
    funext v
    rw [hagree kv hkv v]
  refine becomes new _ (fun kv md hmd => ?_) hn _ _ hb _ (fun kv hkv md hmd => ?_) (fun kv hkv hmd => ?_)
  · dsimp only at hmd
    split at hmd
    · cases hmd
    · cases hmd; rfl
  · dsimp only at hmd
    split at hmd
    · cases hmd
    · cases hmd
      show e (lower kv.1) ++ _ = _
      rw [withAdded, ← hfil kv hkv]; rfl
  · dsimp only at hmd
    split at hmd
    · rename_i h0
      rw [withAdded, ← hfil kv hkv, show kv.2.filter (fun v => !knows lower (onBytes mo) d1 kv.1 v) = [] from h0]; simp
    · cases hmd

theorem OverWireP.add_over (hD : Decides typeOf (onBytes mo) G) (hf : FoldCompat lower (onBytes mo) G) (hG : ∀ a v, G a v → Spec.Wire.Shows v.bytes v) (env : OverWire.Env V R)
    (hconf : Conforms lower mo env.obj.dn entry peer) (w : World S) (hw : Good lower entry G w) (new : List (Str × List AVal)) (hn : (new.map (fun kv => lower kv.1)).Nodup)
    (hc : CleanCall lower typeOf (onBytes mo) G (w.session entry) env.obj (.addAttrs new)) :
    let r := callOver lower typeOf peer env w (.addAttrs new)
    (r.2 = .ok () → Becomes lower (entry w.link.peer) (entry r.1.link.peer) new (fun a vs cur => withAdded (mo a) cur (vs.map AVal.bytes)) ∧
      ∀ kv ∈ new, ShowsExactly lower (entry r.1.link.peer) r.1.obj kv.1) ∧
    (∀ e, r.2 = .error e → entry r.1.link.peer = entry w.link.peer) := by
  intro r
  obtain ⟨h1, h2, h3, h4⟩ := hc
  obtain ⟨k1, k2, k3⟩ := known_over env hconf w hw (new.map Prod.fst) (fun hs a ha => by
    obtain ⟨kv, hkv, rfl⟩ := List.mem_map.1 ha
    exact h4 hs kv hkv)
  simp only [r, callOver, OverWire.addAttrs]
  revert k1 k2 k3
  rcases OverWire.prepare WireP.codec (fun d => d.1.1) peer env lower w.link w.obj (new.map Prod.fst) with ⟨l1, e | d1⟩
  · intro k1 k2 _
    exact ⟨nofun, fun _ _ => k2⟩
  · intro k1 k2 k3
    obtain ⟨hv1, hk1⟩ := k3 d1 rfl
    have hw1 : Good lower entry G ⟨d1, l1⟩ := ⟨k1, by show View lower G ⟨d1, seen (entry l1.peer)⟩; rw [k2]; exact hv1⟩
    have hmod := c05_add_modlist lower typeOf (onBytes mo) G hD d1 (view_good lower hv1) new h1 h2 h3
    dsimp only
    cases hmods : addModlist lower typeOf d1 (new.map (fun kv => (kv.1, Vals.list kv.2))) with
    | error e => exact ⟨nofun, fun _ _ => k2⟩
    | ok mods =>
      have hm2 : mods = addWanted lower (onBytes mo) d1 new := by
        by_cases hb : ∃ kv ∈ new, kv.2 = [] ∧ AttrsDict.getAttr lower d1 kv.1 = []
        · rw [hmod.2 hb] at hmods; simp at hmods
        · rw [hmod.1 (fun kv hkv he hx => hb ⟨kv, hkv, he, hx⟩)] at hmods
          simpa using hmods.symm
      subst hm2
      have hcl := clean_addWanted lower (m := onBytes mo) (G := G) (World.session entry ⟨d1, l1⟩) env.obj.opts new h3 (fun kv hkv => by
        show Agrees lower ⟨d1, seen (entry l1.peer)⟩ kv.1
        rw [k2]
        exact hk1 _ (List.mem_map_of_mem hkv))
      obtain ⟨hgood, g2, g3, g4⟩ := modify_over hD hf hG env hconf ⟨d1, l1⟩ hw1 _ hcl
      refine ⟨fun hok => ?_, fun e he => ((g3 e he).2).trans k2⟩
      have hb := modify_bytes hD hf hG env hconf ⟨d1, l1⟩ hw1 _ hcl hok
      rw [show entry (⟨d1, l1⟩ : World S).link.peer = entry w.link.peer from k2] at hb
      exact ⟨add_becomes _ _ _ new hn (fun kv hkv => hk1 _ (List.mem_map_of_mem hkv)) hb, fun kv hkv => agrees_shows _ _ (g4 _ (by
          show Agrees lower ⟨d1, seen (entry l1.peer)⟩ kv.1
          rw [k2]
          exact hk1 _ (List.mem_map_of_mem hkv)))⟩

theorem OverWireP.dropFirst_none (p : Bytes → Bool) (l : List Bytes) (h : ∀ x ∈ l, p x = false) : dropFirst p l = l := by
  induction l with
  | nil => rfl
  | cons x l ih =>
    simp only [dropFirst, h x (by simp), Bool.false_eq_true, if_false]
    rw [ih (fun y hy => h y (List.mem_cons_of_mem _ hy))]

theorem OverWireP.dropFirst_mem (p : Bytes → Bool) (l : List Bytes) : ∀ x ∈ dropFirst p l, x ∈ l := by
  induction l with
  | nil => exact fun _ h => h
  | cons a l ih =>
    intro x hx
    simp only [dropFirst] at hx
    split at hx
    · exact List.mem_cons_of_mem _ hx
    · rcases List.mem_cons.1 hx with rfl | hx
      · simp
      · exact List.mem_cons_of_mem _ (ih x hx)

/-- values that are not there need not be left out -/
theorem OverWireP.without_known (m : Bytes → Bytes → Bool) (cur : List Bytes) (vs : List Bytes) : ∀ l : List Bytes, (∀ x ∈ l, x ∈ cur) →
    without m l (vs.filter (fun v => cur.any (fun x => m x v))) = without m l vs := by
  induction vs with
  | nil => intro l _; rfl
  | cons v vs ih =>
    intro l hl
    have hstep := ih (dropFirst (fun x => m x v) l) (fun x hx => hl x (dropFirst_mem _ _ x hx))
    cases hv : cur.any (fun x => m x v) with
    | true =>
      rw [List.filter_cons_of_pos (by simp only [hv])]
      exact hstep
    | false =>
      rw [List.filter_cons_of_neg (by simp only [hv]; decide)]
      have : dropFirst (fun x => m x v) l = l := dropFirst_none _ _ (fun x hx => by
        have := List.any_eq_false.1 hv x (hl x hx)
        simpa using this)
      rw [this] at hstep
      rw [hstep]
      show without m l vs = without m (dropFirst (fun x => m x v) l) vs
      rw [this]

/-- what `delete_attrs` asks for: all values, or the values given -/
def OverWireP.deleted (m : Bytes → Bytes → Bool) (vs : Vals AVal) (cur : List Bytes) : List Bytes := if valsList vs = [] then [] else without m cur ((valsList vs).map AVal.bytes)

theorem OverWireP.without_nil (m : Bytes → Bytes → Bool) (vs : List Bytes) : without m [] vs = [] := by
  induction vs with
  | nil => rfl
  | cons v vs ih => exact ih

theorem OverWireP.delete_becomes (e e' : Spec.Entry Bytes) (d1 : AttrsDict AVal) (del : List (Str × Vals AVal)) (hn : (del.map (fun kv => lower kv.1)).Nodup)
    (hk1 : ∀ kv ∈ del, AttrsDict.getAttr lower d1 kv.1 = seen e (lower kv.1)) (hb : srvModify lower mo e ((meant (delWanted lower (onBytes mo) d1 del)).map toBytes) = .ok e') :
    Becomes lower e e' del (fun a vs cur => deleted (mo a) vs cur) := by
  have hshow : ∀ kv ∈ del, AttrsDict.getAttr lower d1 kv.1 = seen (e) (lower kv.1) := hk1
  have hagree : ∀ kv ∈ del, ∀ v, knows lower (onBytes mo) d1 kv.1 v = (e (lower kv.1)).any (fun x => mo kv.1 x v.bytes) :=
    fun kv hkv v => any_shown _ _ _ (hshow kv hkv) v
  have hfil : ∀ kv ∈ del, ∀ l : List AVal, (l.filter (fun v => knows lower (onBytes mo) d1 kv.1 v)).map AVal.bytes =
      (l.map AVal.bytes).filter (fun v => (e (lower kv.1)).any (fun x => mo kv.1 x v)) := by
    intro kv hkv l
    rw [← filter_bytes (fun v => (e (lower kv.1)).any (fun x => mo kv.1 x v))]
    congr 2
    funext v
    rw [hagree kv hkv v]
  have hnil : ∀ kv ∈ del, AttrsDict.getAttr lower d1 kv.1 = [] → e (lower kv.1) = [] := fun kv hkv h0 => by
    rw [hshow kv hkv] at h0
    exact List.map_eq_nil_iff.1 h0
  refine becomes del _ (fun kv md hmd => ?_) hn _ _ hb _ (fun kv hkv md hmd => ?_) (fun kv hkv hmd => ?_)
  · obtain ⟨a, vs⟩ := kv
    dsimp only at hmd
    split at hmd
    · cases hmd
    · split at hmd
      · cases hmd; rfl
      · cases hmd; rfl
      · split at hmd
        · cases hmd
        · cases hmd; rfl
  · obtain ⟨a, vs⟩ := kv
    dsimp only at hmd
    split at hmd
    · cases hmd
    · cases vs with
      | deleteAll =>
        cases hmd
        rfl
      | list l =>
        cases l with
        | nil => cases hmd; rfl
        | cons v l =>
          dsimp only at hmd
          split at hmd
          · cases hmd
          · rename_i h0
            cases hmd
            have hf1 := hfil (a, .list (v :: l)) hkv (v :: l)
            have hne : ((v :: l).filter (fun v => knows lower (onBytes mo) d1 a v)).map AVal.bytes ≠ [] := fun h => h0 (List.map_eq_nil_iff.1 h)
            show (if ((v :: l).filter (fun v => knows lower (onBytes mo) d1 a v)).map AVal.bytes = [] then [] else without (mo a) (e (lower a))
              (((v :: l).filter (fun v => knows lower (onBytes mo) d1 a v)).map AVal.bytes)) = _
            rw [if_neg hne, hf1, without_known (mo a) _ _ _ (fun _ h => h)]
            rfl
  · obtain ⟨a, vs⟩ := kv
    dsimp only at hmd
    split at hmd
    · rename_i h0
      have h0' := hnil _ hkv h0
      simp only [deleted]
      rw [show e (lower a) = [] from h0', without_nil]
      simp
    · cases vs with
      | deleteAll => cases hmd
      | list l =>
        cases l with
        | nil => cases hmd
        | cons v l =>
          dsimp only at hmd
          split at hmd
          · rename_i h0
            have hf1 := hfil (a, .list (v :: l)) hkv (v :: l)
            have h0' : (v :: l).filter (fun v => knows lower (onBytes mo) d1 a v) = [] := h0
            rw [h0'] at hf1
            show (if (v :: l) = [] then [] else without (mo a) (e (lower a)) ((v :: l).map AVal.bytes)) = _
            rw [if_neg (by simp), ← without_known (mo a) (e (lower a)) _ _ (fun _ h => h)]
            have hf2 : [] = ((v :: l).map AVal.bytes).filter (fun v => (e (lower a)).any (fun x => mo a x v)) := hf1
            rw [← hf2]; rfl
          · cases hmd

theorem OverWireP.delete_over (hD : Decides typeOf (onBytes mo) G) (hf : FoldCompat lower (onBytes mo) G) (hG : ∀ a v, G a v → Spec.Wire.Shows v.bytes v) (env : OverWire.Env V R)
    (hconf : Conforms lower mo env.obj.dn entry peer) (w : World S) (hw : Good lower entry G w) (del : List (Str × Vals AVal)) (hn : (del.map (fun kv => lower kv.1)).Nodup)
    (hc : CleanCall lower typeOf (onBytes mo) G (w.session entry) env.obj (.deleteAttrs del)) :
    let r := callOver lower typeOf peer env w (.deleteAttrs del)
    (r.2 = .ok () → Becomes lower (entry w.link.peer) (entry r.1.link.peer) del (fun a vs cur => deleted (mo a) vs cur) ∧
      ∀ kv ∈ del, ShowsExactly lower (entry r.1.link.peer) r.1.obj kv.1) ∧
    (∀ e, r.2 = .error e → entry r.1.link.peer = entry w.link.peer) := by
  intro r
  obtain ⟨h1, h2, h3, h4, h5⟩ := hc
  obtain ⟨k1, k2, k3⟩ := known_over env hconf w hw (del.map Prod.fst) (fun hs a ha => by
    obtain ⟨kv, hkv, rfl⟩ := List.mem_map.1 ha
    exact h4 hs kv hkv)
  simp only [r, callOver, OverWire.deleteAttrs]
  revert k1 k2 k3
  rcases OverWire.prepare WireP.codec (fun d => d.1.1) peer env lower w.link w.obj (del.map Prod.fst) with ⟨l1, e | d1⟩
  · intro k1 k2 _
    exact ⟨nofun, fun _ _ => k2⟩
  · intro k1 k2 k3
    obtain ⟨hv1, hk1⟩ := k3 d1 rfl
    have hw1 : Good lower entry G ⟨d1, l1⟩ := ⟨k1, by show View lower G ⟨d1, seen (entry l1.peer)⟩; rw [k2]; exact hv1⟩
    have hmod := c06_delete_modlist lower typeOf (onBytes mo) G hD d1 (view_good lower hv1) del h1 h2
      (fun kv hkv l hl v hv => h3 kv hkv v (by rw [hl]; exact hv))
    simp only [hmod]
    have hcl := clean_delWanted lower (m := onBytes mo) (G := G) (World.session entry ⟨d1, l1⟩) env.obj.opts del h3 (fun kv hkv => by
      show Agrees lower ⟨d1, seen (entry l1.peer)⟩ kv.1
      rw [k2]
      exact hk1 _ (List.mem_map_of_mem hkv)) h5
    obtain ⟨hgood, g2, g3, g4⟩ := modify_over hD hf hG env hconf ⟨d1, l1⟩ hw1 _ hcl
    refine ⟨fun hok => ?_, fun e he => ((g3 e he).2).trans k2⟩
    have hb := modify_bytes hD hf hG env hconf ⟨d1, l1⟩ hw1 _ hcl hok
    rw [show entry (⟨d1, l1⟩ : World S).link.peer = entry w.link.peer from k2] at hb
    exact ⟨delete_becomes _ _ _ del hn (fun kv hkv => hk1 _ (List.mem_map_of_mem hkv)) hb, fun kv hkv => agrees_shows _ _ (g4 _ (by
        show Agrees lower ⟨d1, seen (entry l1.peer)⟩ kv.1
        rw [k2]
        exact hk1 _ (List.mem_map_of_mem hkv)))⟩

theorem OverWireP.replace_over (hD : Decides typeOf (onBytes mo) G) (hf : FoldCompat lower (onBytes mo) G) (hG : ∀ a v, G a v → Spec.Wire.Shows v.bytes v) (env : OverWire.Env V R)
    (hconf : Conforms lower mo env.obj.dn entry peer) (w : World S) (hw : Good lower entry G w) (new : List (Str × Vals AVal)) (hn : (new.map (fun kv => lower kv.1)).Nodup)
    (hc : CleanCall lower typeOf (onBytes mo) G (w.session entry) env.obj (.replaceAttrs new)) :
    let r := callOver lower typeOf peer env w (.replaceAttrs new)
    (r.2 = .ok () → Becomes lower (entry w.link.peer) (entry r.1.link.peer) new (fun _ vs _ => (valsList vs).map AVal.bytes) ∧
      ∀ kv ∈ new, ShowsExactly lower (entry r.1.link.peer) r.1.obj kv.1) ∧
    (∀ e, r.2 = .error e → entry r.1.link.peer = entry w.link.peer) := by
  intro r
  have hml : modlist .replace (new.map (fun kv => (kv.1, RawVals.vals kv.2))) = .ok (new.map (fun kv => ⟨.replace, kv.1, kv.2⟩)) := by
    rw [(c07_modlist _ _).2 (by simp)]
    simp [normalise]
  have hr : r = callOver lower typeOf peer env w (.modify (new.map (fun kv => ⟨.replace, kv.1, kv.2⟩))) := by
    simp only [r, callOver, OverWire.replaceAttrs, hml]
  have hc : Clean lower (onBytes mo) G (w.session entry) env.obj.opts (new.map (fun kv => ⟨.replace, kv.1, kv.2⟩)) := hc
  obtain ⟨hgood, g2, g3, g4⟩ := modify_over hD hf hG env hconf w hw _ hc
  rw [hr]
  refine ⟨fun hok => ?_, fun e he => (g3 e he).2⟩
  have hb := modify_bytes hD hf hG env hconf w hw _ hc hok
  have hfm : new.map (fun kv => (⟨.replace, kv.1, kv.2⟩ : Mod AVal)) = new.filterMap (fun kv => some ⟨.replace, kv.1, kv.2⟩) := by
    rw [List.filterMap_eq_map']
  refine ⟨?_, fun kv hkv => agrees_shows _ _ ((g2 hok).2 ⟨.replace, kv.1, kv.2⟩ (List.mem_map.2 ⟨kv, hkv, rfl⟩))⟩
  rw [hfm] at hb ⊢
  exact becomes new _ (fun kv md hmd => by cases hmd; rfl) hn _ _ hb _ (fun kv hkv md hmd => by cases hmd; rfl) (fun kv hkv hmd => by cases hmd)

/-- **C88 (histories).** A new object on a new connection, any history of calls that are clean when they are made, any server that conforms for the object's DN (any encoding and any cutting of what it sends, any
refusal): in the end every attribute that the object shows is shown exactly as the server has it. -/
theorem c88_mirror (hD : Decides typeOf (onBytes mo) G) (hf : FoldCompat lower (onBytes mo) G) (hG : ∀ a v, G a v → Spec.Wire.Shows v.bytes v) (dn : Str) (hconf : Conforms lower mo dn entry peer)
    (s0 : S) (hs : GoodEntry lower G (seen (entry s0))) (hist : List (OverWire.Env V R × ObjCall AVal))
    (hc : CleanOver lower typeOf mo entry peer G dn ⟨CIDict.empty, ⟨Session.St.init, s0⟩⟩ hist) :
    let f := World.after lower typeOf peer ⟨CIDict.empty, ⟨Session.St.init, s0⟩⟩ hist
    ∀ attr, AttrsDict.getAttr lower f.obj attr ≠ [] → ShowsExactly lower (entry f.link.peer) f.obj attr := by
  intro f attr hne
  exact agrees_shows f attr ((good_after hD hf hG dn hconf hist _ (good_new s0 hs) hc).view.view attr hne)

/-- **C88 (one `modify`).** After any clean history: a clean `modify` that returns has made exactly the changes that were asked for on the server, and shows the attributes exactly; one that raises has
changed neither the object nor the server's entry. -/
theorem c88_modify (hD : Decides typeOf (onBytes mo) G) (hf : FoldCompat lower (onBytes mo) G) (hG : ∀ a v, G a v → Spec.Wire.Shows v.bytes v) (dn : Str)
    (hconf : Conforms lower mo dn entry peer) (s0 : S) (hs : GoodEntry lower G (seen (entry s0))) (hist : List (OverWire.Env V R × ObjCall AVal))
    (hh : CleanOver lower typeOf mo entry peer G dn ⟨CIDict.empty, ⟨Session.St.init, s0⟩⟩ hist) (env : OverWire.Env V R) (hdn : env.obj.dn = dn) (mods : List (Mod AVal))
    (hc : Clean lower (onBytes mo) G ((World.after lower typeOf peer ⟨CIDict.empty, ⟨Session.St.init, s0⟩⟩ hist).session entry) env.obj.opts mods) :
    let w := World.after lower typeOf peer ⟨CIDict.empty, ⟨Session.St.init, s0⟩⟩ hist
    let r := callOver lower typeOf peer env w (.modify mods)
    (r.2 = .ok () → srvModify lower mo (entry w.link.peer) ((meant mods).map toBytes) = .ok (entry r.1.link.peer) ∧
      ∀ md ∈ mods, ShowsExactly lower (entry r.1.link.peer) r.1.obj md.attr) ∧
    (∀ e, r.2 = .error e → r.1.obj = w.obj ∧ entry r.1.link.peer = entry w.link.peer) := by
  intro w r
  subst hdn
  have hw := good_after hD hf hG _ hconf hist _ (good_new s0 hs) hh
  obtain ⟨_, h2, h3, _⟩ := modify_over hD hf hG env hconf w hw mods hc
  exact ⟨fun hok => ⟨modify_bytes hD hf hG env hconf w hw mods hc hok, fun md hmd => agrees_shows _ _ ((h2 hok).2 md hmd)⟩, h3⟩

/-- **C88 (`refresh`).** After any clean history: a `refresh` leaves the server's entry as it is, and if it returns, every attribute that was named is shown exactly (no values if the server has none). -/
theorem c88_refresh (hD : Decides typeOf (onBytes mo) G) (hf : FoldCompat lower (onBytes mo) G) (hG : ∀ a v, G a v → Spec.Wire.Shows v.bytes v) (dn : Str)
    (hconf : Conforms lower mo dn entry peer) (s0 : S) (hs : GoodEntry lower G (seen (entry s0))) (hist : List (OverWire.Env V R × ObjCall AVal))
    (hh : CleanOver lower typeOf mo entry peer G dn ⟨CIDict.empty, ⟨Session.St.init, s0⟩⟩ hist) (env : OverWire.Env V R) (hdn : env.obj.dn = dn) (attrs : List Str) :
    let w := World.after lower typeOf peer ⟨CIDict.empty, ⟨Session.St.init, s0⟩⟩ hist
    let r := callOver lower typeOf peer env w (.refresh attrs)
    entry r.1.link.peer = entry w.link.peer ∧
    (r.2 = .ok () → ∀ a ∈ attrs, ShowsExactly lower (entry w.link.peer) r.1.obj a) ∧
    (∀ e, r.2 = .error e → r.1.obj = w.obj) := by
  intro w r
  subst hdn
  have hw := good_after hD hf hG _ hconf hist _ (good_new s0 hs) hh
  obtain ⟨h1, h2, h3⟩ := refresh_over env hconf w hw attrs
  simp only [r, callOver, OverWire.refreshObj]
  revert h1 h2 h3
  rcases OverWire.refresh WireP.codec (fun d => d.1.1) peer env lower w.link w.obj attrs with ⟨l', e | d'⟩
  · intro h1 h2 _
    exact ⟨h2, nofun, fun _ _ => rfl⟩
  · intro h1 h2 h3
    obtain ⟨got, hg, rfl⟩ := h3 d' rfl
    refine ⟨h2, fun _ a ha => ?_, nofun⟩
    have hstep := (c10_refresh_step lower (w.session entry) hw.view attrs got hg).2
    have : Agrees lower ⟨CIDict.update lower w.obj got, seen (entry w.link.peer)⟩ a := by
      by_cases h0 : AttrsDict.getAttr lower w.obj a = []
      · exact hstep.2 a ha h0
      · exact hstep.1 a (hw.view.view a h0)
    have := agrees_shows (entry := entry) (lower := lower) ⟨CIDict.update lower w.obj got, l'⟩ a (by
      show AttrsDict.getAttr lower _ a = seen (entry l'.peer) (lower a)
      rw [h2]
      exact this)
    rw [show entry (⟨CIDict.update lower w.obj got, l'⟩ : World S).link.peer = entry w.link.peer from h2] at this
    exact this


/-- **C88 (`add_attrs`, `replace_attrs`, `delete_attrs`).** After any clean history, for names that are different also when case is ignored: a clean call that returns has made the server's entry have, for the
attributes named, its old values followed by the new ones that were not there; the values given; its old values without those given, or none if none are given; all other attributes have their old values; and
the object shows the attributes named exactly. A call that raises has not changed the entry. -/
theorem c88_attrs (hD : Decides typeOf (onBytes mo) G) (hf : FoldCompat lower (onBytes mo) G) (hG : ∀ a v, G a v → Spec.Wire.Shows v.bytes v) (dn : Str)
    (hconf : Conforms lower mo dn entry peer) (s0 : S) (hs : GoodEntry lower G (seen (entry s0))) (hist : List (OverWire.Env V R × ObjCall AVal))
    (hh : CleanOver lower typeOf mo entry peer G dn ⟨CIDict.empty, ⟨Session.St.init, s0⟩⟩ hist) (env : OverWire.Env V R) (hdn : env.obj.dn = dn) :
    let w := World.after lower typeOf peer ⟨CIDict.empty, ⟨Session.St.init, s0⟩⟩ hist
    (∀ new, (new.map (fun kv => lower kv.1)).Nodup → CleanCall lower typeOf (onBytes mo) G (w.session entry) env.obj (.addAttrs new) →
      let r := callOver lower typeOf peer env w (.addAttrs new)
      (r.2 = .ok () → Becomes lower (entry w.link.peer) (entry r.1.link.peer) new (fun a vs cur => withAdded (mo a) cur (vs.map AVal.bytes)) ∧ ∀ kv ∈ new, ShowsExactly lower (entry r.1.link.peer) r.1.obj kv.1) ∧
      (∀ e, r.2 = .error e → entry r.1.link.peer = entry w.link.peer)) ∧
    (∀ new, (new.map (fun kv => lower kv.1)).Nodup → CleanCall lower typeOf (onBytes mo) G (w.session entry) env.obj (.replaceAttrs new) →
      let r := callOver lower typeOf peer env w (.replaceAttrs new)
      (r.2 = .ok () → Becomes lower (entry w.link.peer) (entry r.1.link.peer) new (fun _ vs _ => (valsList vs).map AVal.bytes) ∧ ∀ kv ∈ new, ShowsExactly lower (entry r.1.link.peer) r.1.obj kv.1) ∧
      (∀ e, r.2 = .error e → entry r.1.link.peer = entry w.link.peer)) ∧
    (∀ del, (del.map (fun kv => lower kv.1)).Nodup → CleanCall lower typeOf (onBytes mo) G (w.session entry) env.obj (.deleteAttrs del) →
      let r := callOver lower typeOf peer env w (.deleteAttrs del)
      (r.2 = .ok () → Becomes lower (entry w.link.peer) (entry r.1.link.peer) del
          (fun a vs cur => if valsList vs = [] then [] else without (mo a) cur ((valsList vs).map AVal.bytes)) ∧ ∀ kv ∈ del, ShowsExactly lower (entry r.1.link.peer) r.1.obj kv.1) ∧
      (∀ e, r.2 = .error e → entry r.1.link.peer = entry w.link.peer)) := by
  intro w
  subst hdn
  have hw := good_after hD hf hG _ hconf hist _ (good_new s0 hs) hh
  exact ⟨fun new hn hc => add_over hD hf hG env hconf w hw new hn hc, fun new hn hc => replace_over hD hf hG env hconf w hw new hn hc,
    fun del hn hc => delete_over hD hf hG env hconf w hw del hn hc⟩

end

/-! ## There are such servers -/
namespace OverWireP
section
open Laurelin.Wire WireP Spec.OverWireS

theorem short_tlv (g : UInt8) (c : Bytes) (h : c.length < 128) : Spec.PagedS.IsTlv g c ([g] ++ [byte c.length] ++ c) := by
  refine ⟨_, ?_, rfl⟩
  have hb : (byte c.length).toNat = c.length := by simp [byte]; omega
  have := Spec.PagedS.IsLen.short (byte c.length) (by omega)
  rwa [hb] at this

theorem id_short (mid : Int) (h : Spec.Wire.Int0Max mid) : (zBytes mid).length ≤ 5 := by
  obtain ⟨h1, h2⟩ := h
  obtain ⟨n, rfl⟩ := Int.eq_ofNat_of_zero_le h1
  have : (Ber.natBytes n).length ≤ 4 := natBytes_short (by omega)
  show (Ber.intBytes n).length ≤ 5
  unfold Ber.intBytes
  split
  · simp
  · rename_i hb
    rw [hb] at this
    simp only [List.length_cons] at this
    split <;> simp only [List.length_cons] <;> omega

/-- a result that fits into few octets -/
def said (code : Int) : Spec.Wire.Result := ⟨code, [], [], none⟩

theorem small_enc (g : UInt8) (op : Spec.Wire.Op) (code : Int) (hcode : (zBytes code).length ≤ 5) (hop : op.enc Spec.Wire.x690 = Spec.Wire.tlv g (Spec.Wire.all ((said code).parts Spec.Wire.x690))) (hv : op.Valid)
    (mid : Int) (hm : Spec.Wire.Int0Max mid) : ∃ b, Spec.Wire.Message.Valid ⟨mid, op, none⟩ ∧ Spec.Wire.Message.enc Spec.Wire.x690 ⟨mid, op, none⟩ b := by
  have hz := id_short mid hm
  let c1 : Bytes := [0x0A] ++ [byte (zBytes code).length] ++ zBytes code ++ ([0x04, 0] ++ ([0x04, 0] ++ ([] ++ [])))
  let c2 : Bytes := [0x02] ++ [byte (zBytes mid).length] ++ zBytes mid ++ (([g] ++ [byte c1.length] ++ c1) ++ ([] ++ []))
  have l1 : c1.length = (zBytes code).length + 6 := by simp only [c1, List.length_append, List.length_cons, List.length_nil]; omega
  have l2 : c2.length = (zBytes mid).length + c1.length + 4 := by simp only [c2, List.length_append, List.length_cons, List.length_nil]; omega
  have h4 : Spec.Wire.str4 [] [0x04, 0] := ⟨[], rfl, short_tlv 0x04 [] (by decide)⟩
  refine ⟨[0x30] ++ [byte c2.length] ++ c2, ⟨hm, hv⟩, c2, ⟨_, _, rfl, ⟨_, zBytes_ok _ mid, short_tlv _ _ (by omega)⟩, ⟨_, _, rfl, ?_, ⟨_, _, rfl, rfl, rfl⟩⟩⟩, short_tlv _ _ (by omega)⟩
  show op.enc Spec.Wire.x690 _
  rw [hop]
  exact ⟨c1, ⟨_, _, rfl, ⟨_, zBytes_ok _ code, short_tlv _ _ (by omega)⟩, ⟨_, _, rfl, h4, ⟨_, _, rfl, h4, ⟨_, _, rfl, rfl, rfl⟩⟩⟩⟩, short_tlv _ _ (by omega)⟩

theorem answer_one (mid : Int) (ops : List Spec.Wire.Op) (h : ∀ o ∈ ops, ∃ b, Spec.Wire.Message.Valid ⟨mid, o, none⟩ ∧ Spec.Wire.Message.enc Spec.Wire.x690 ⟨mid, o, none⟩ b) : ∃ pieces, Answered mid ops pieces := by
  suffices hb : ∃ bss : List Bytes, Pairwise2 (fun o b => Spec.Wire.Message.Valid ⟨mid, o, none⟩ ∧ Spec.Wire.Message.enc Spec.Wire.x690 ⟨mid, o, none⟩ b) ops bss by
    obtain ⟨bss, hb⟩ := hb
    refine ⟨bss, bss, hb, ?_, rfl⟩
    intro c hc
    have : ∀ {l : List Spec.Wire.Op} {l' : List Bytes}, Pairwise2 (fun o b => Spec.Wire.Message.Valid ⟨mid, o, none⟩ ∧ Spec.Wire.Message.enc Spec.Wire.x690 ⟨mid, o, none⟩ b) l l' → c ∈ l' → c ≠ [] := by
      intro l l' hp
      induction hp with
      | nil => nofun
      | cons h1 _ ih =>
        intro hc
        rcases List.mem_cons.1 hc with rfl | hc
        · obtain ⟨_, c', _, l, _, rfl⟩ := h1
          simp
        · exact ih hc
    exact this hb hc
  induction ops with
  | nil => exact ⟨[], .nil⟩
  | cons o ops ih =>
    obtain ⟨b, hb⟩ := h o (by simp)
    obtain ⟨bss, hbs⟩ := ih (fun o ho => h o (List.mem_cons_of_mem _ ho))
    exact ⟨b :: bss, .cons hb hbs⟩

theorem read_once {m m' : Spec.Wire.Message} {bs : Bytes} (h1 : m.Valid) (h2 : m.enc Spec.Wire.x690 bs) (h3 : m'.Valid) (h4 : m'.enc Spec.Wire.x690 bs) : m = m' := by
  have e1 := recv_ok m h1 bs h2 []
  rw [recv_ok m' h3 bs h4 []] at e1
  simp only [Res.ok.injEq, Prod.mk.injEq, and_true] at e1
  exact (message_inj _ _ e1).symm

theorem modifyOp_inj (dn : Str) (cs cs' : List (Change Bytes)) (h : Spec.OverWireS.modifyOp dn cs = Spec.OverWireS.modifyOp dn cs') : cs = cs' := by
  simp only [Spec.OverWireS.modifyOp, Spec.Wire.Op.modifyRequest.injEq, true_and] at h
  induction cs generalizing cs' with
  | nil => cases cs' with
    | nil => rfl
    | cons => simp at h
  | cons c cs ih =>
    cases cs' with
    | nil => simp at h
    | cons c' cs' =>
      simp only [List.map_cons, List.cons.injEq, Prod.mk.injEq, Spec.Wire.Attr.mk.injEq] at h
      obtain ⟨⟨h1, h2, h3⟩, h4⟩ := h
      rw [ih cs' h4]
      obtain ⟨o, a, v⟩ := c
      obtain ⟨o', a', v'⟩ := c'
      have : a = a' := utf8_injective _ _ h2
      subst this
      have : v = v' := h3
      subst this
      have : o = o' := by cases o <;> cases o' <;> simp [Spec.Wire.modNumber] at h1 <;> rfl
      subst this
      rfl

theorem map_utf8_inj (l l' : List Str) (h : l.map utf8Enc = l'.map utf8Enc) : l = l' := by
  induction l generalizing l' with
  | nil => cases l' with
    | nil => rfl
    | cons => simp at h
  | cons a l ih =>
    cases l' with
    | nil => simp at h
    | cons a' l' =>
      simp only [List.map_cons, List.cons.injEq] at h
      rw [utf8_injective _ _ h.1, ih l' h.2]

/-- the attributes of the entry that are asked for, each once -/
def listing (lower : Str → Str) (e : Spec.Entry Bytes) : List Str → List (Str × List Bytes)
  | [] => []
  | a :: as => if e (lower a) = [] ∨ (listing lower e as).any (fun p => decide (lower p.1 = lower a)) = true then listing lower e as else (a, e (lower a)) :: listing lower e as

theorem listing_faithful (lower : Str → Str) (e : Spec.Entry Bytes) (attrs : List Str) : Faithful lower e attrs (listing lower e attrs) := by
  induction attrs with
  | nil => exact ⟨List.nodup_nil, nofun, nofun⟩
  | cons a as ih =>
    by_cases hc : e (lower a) = [] ∨ (listing lower e as).any (fun p => decide (lower p.1 = lower a)) = true
    · rw [listing, if_pos hc]
      refine ⟨ih.distinct, ih.sound, fun x hx hne => ?_⟩
      rcases List.mem_cons.1 hx with rfl | hx
      · rcases hc with h | h
        · exact absurd h hne
        · obtain ⟨p, hp, he⟩ := List.any_eq_true.1 h
          exact ⟨p, hp, of_decide_eq_true he⟩
      · exact ih.complete x hx hne
    · rw [listing, if_neg hc]
      refine ⟨?_, ?_, ?_⟩
      · simp only [List.map_cons, List.nodup_cons]
        refine ⟨fun hm => hc (.inr ?_), ih.distinct⟩
        obtain ⟨p, hp, he⟩ := List.mem_map.1 hm
        exact List.any_eq_true.2 ⟨p, hp, decide_eq_true he⟩
      · intro p hp
        rcases List.mem_cons.1 hp with rfl | hp
        · rfl
        · exact ih.sound p hp
      · intro x hx hne
        rcases List.mem_cons.1 hx with rfl | hx
        · exact ⟨(x, e (lower x)), by simp, rfl⟩
        · obtain ⟨p, hp, he⟩ := ih.complete x hx hne
          exact ⟨p, List.mem_cons_of_mem _ hp, he⟩

/-- the entry, with those attributes -/
def entryOp (dn : Str) (got : List (Str × List Bytes)) : Spec.Wire.Op := .searchResEntry (utf8Enc dn) (got.map (fun a => ⟨utf8Enc a.1, a.2⟩))

end
end OverWireP

section
open OverWireP Spec.OverWireS WireP

theorem OverWireP.listing_asked (lower : Str → Str) (e : Spec.Entry Bytes) (attrs : List Str) : ∀ q ∈ listing lower e attrs, ∃ a ∈ attrs, lower a = lower q.1 := by
  induction attrs with
  | nil => exact nofun
  | cons b rest ih =>
    intro q hq
    simp only [listing] at hq
    split at hq
    · obtain ⟨a, ha, h⟩ := ih q hq
      exact ⟨a, by simp [ha], h⟩
    · rcases List.mem_cons.1 hq with rfl | hq
      · exact ⟨b, by simp, rfl⟩
      · obtain ⟨a, ha, h⟩ := ih q hq
        exact ⟨a, by simp [ha], h⟩

/-- a server that conforms and is selective; it makes every change that can be made, and sends what it is asked for if that can be encoded -/
theorem OverWireP.selective_exists (lower : Str → Str) (mo : Str → Bytes → Bytes → Bool) (dn : Str) :
    ∃ peer : OverWire.Peer (Spec.Entry Bytes), Conforms lower mo dn (fun e => e) peer ∧ Selective lower dn (fun e => e) peer ∧
      (∀ e bs mid cs ctrls e', Spec.Wire.Message.Valid ⟨mid, Spec.OverWireS.modifyOp dn cs, ctrls⟩ → Spec.Wire.Message.enc Spec.Wire.x690 ⟨mid, Spec.OverWireS.modifyOp dn cs, ctrls⟩ bs → srvModify lower mo e cs = .ok e' → (peer e bs).1 = e') ∧
      (∀ e bs mid deref size time f attrs ctrls b, Spec.Wire.Message.Valid ⟨mid, readOp dn deref size time f attrs, ctrls⟩ → Spec.Wire.Message.enc Spec.Wire.x690 ⟨mid, readOp dn deref size time f attrs, ctrls⟩ bs →
        Spec.Wire.Message.enc Spec.Wire.x690 ⟨mid, entryOp dn (listing lower e attrs), none⟩ b → Answered mid [entryOp dn (listing lower e attrs), .searchResDone (said 0)] (peer e bs).2) := by
  have key : ∀ (e : Spec.Entry Bytes) (bs : Bytes), ∃ x : Spec.Entry Bytes × List Bytes,
      (∀ mid cs ctrls, Spec.Wire.Message.Valid ⟨mid, Spec.OverWireS.modifyOp dn cs, ctrls⟩ → Spec.Wire.Message.enc Spec.Wire.x690 ⟨mid, Spec.OverWireS.modifyOp dn cs, ctrls⟩ bs →
        (∃ r, Answered mid [.modifyResponse r] x.2 ∧ ((r.code = 0 ∧ srvModify lower mo e cs = .ok x.1) ∨ (r.code ≠ 0 ∧ x.1 = e))) ∧ ∀ e', srvModify lower mo e cs = .ok e' → x.1 = e') ∧
      (∀ mid deref size time f attrs ctrls, Spec.Wire.Message.Valid ⟨mid, readOp dn deref size time f attrs, ctrls⟩ → Spec.Wire.Message.enc Spec.Wire.x690 ⟨mid, readOp dn deref size time f attrs, ctrls⟩ bs →
        (x.1 = e ∧ ∃ (found : List (Str × List (Str × List Bytes))) (r : Spec.Wire.Result), r.code ≠ 10 ∧ r.referral = none ∧
          Answered mid (found.map (fun p => .searchResEntry (utf8Enc p.1) (p.2.map (fun a => ⟨utf8Enc a.1, a.2⟩))) ++ [.searchResDone r]) x.2 ∧ ∀ p ∈ found, Faithful lower e attrs p.2 ∧ ∀ q ∈ p.2, ∃ a ∈ attrs, lower a = lower q.1) ∧
        ∀ b, Spec.Wire.Message.enc Spec.Wire.x690 ⟨mid, entryOp dn (listing lower e attrs), none⟩ b → Answered mid [entryOp dn (listing lower e attrs), .searchResDone (said 0)] x.2) := by
    intro e bs
    by_cases h1 : ∃ mid cs ctrls, Spec.Wire.Message.Valid ⟨mid, Spec.OverWireS.modifyOp dn cs, ctrls⟩ ∧ Spec.Wire.Message.enc Spec.Wire.x690 ⟨mid, Spec.OverWireS.modifyOp dn cs, ctrls⟩ bs
    · obtain ⟨mid, cs, ctrls, hv, he⟩ := h1
      have hsame : ∀ mid' cs' ctrls', Spec.Wire.Message.Valid ⟨mid', Spec.OverWireS.modifyOp dn cs', ctrls'⟩ → Spec.Wire.Message.enc Spec.Wire.x690 ⟨mid', Spec.OverWireS.modifyOp dn cs', ctrls'⟩ bs → mid' = mid ∧ cs' = cs := by
        intro mid' cs' ctrls' h3 h4
        have := read_once h3 h4 hv he
        simp only [Spec.Wire.Message.mk.injEq] at this
        exact ⟨this.1, modifyOp_inj dn _ _ this.2.1⟩
      have hnot : ∀ mid' deref size time f attrs ctrls', Spec.Wire.Message.Valid ⟨mid', readOp dn deref size time f attrs, ctrls'⟩ →
          ¬ Spec.Wire.Message.enc Spec.Wire.x690 ⟨mid', readOp dn deref size time f attrs, ctrls'⟩ bs := by
        intro mid' deref size time f attrs ctrls' h3 h4
        have := read_once h3 h4 hv he
        simp only [Spec.Wire.Message.mk.injEq] at this
        cases this.2.1
      have hans : ∀ code : Int, (zBytes code).length ≤ 5 → ∃ pieces, Answered mid [.modifyResponse (said code)] pieces := fun code hcode =>
        answer_one mid _ (fun o ho => by
          rw [List.mem_singleton.1 ho]
          exact small_enc 0x67 (.modifyResponse (said code)) code hcode rfl trivial mid hv.1)
      cases hm : srvModify lower mo e cs with
      | ok e' =>
        obtain ⟨pieces, hp⟩ := hans 0 (by decide)
        refine ⟨(e', pieces), fun mid' cs' ctrls' h3 h4 => ?_, fun mid' deref size time f attrs ctrls' h3 h4 => absurd h4 (hnot _ _ _ _ _ _ _ h3)⟩
        obtain ⟨rfl, rfl⟩ := hsame _ _ _ h3 h4
        exact ⟨⟨said 0, hp, .inl ⟨rfl, hm⟩⟩, fun e2 h2 => by rw [hm] at h2; cases h2; rfl⟩
      | error err =>
        obtain ⟨pieces, hp⟩ := hans 20 (by decide)
        refine ⟨(e, pieces), fun mid' cs' ctrls' h3 h4 => ?_, fun mid' deref size time f attrs ctrls' h3 h4 => absurd h4 (hnot _ _ _ _ _ _ _ h3)⟩
        obtain ⟨rfl, rfl⟩ := hsame _ _ _ h3 h4
        exact ⟨⟨said 20, hp, .inr ⟨by decide, rfl⟩⟩, fun e2 h2 => by rw [hm] at h2; cases h2⟩
    · by_cases h2 : ∃ mid deref size time f attrs ctrls, Spec.Wire.Message.Valid ⟨mid, readOp dn deref size time f attrs, ctrls⟩ ∧ Spec.Wire.Message.enc Spec.Wire.x690 ⟨mid, readOp dn deref size time f attrs, ctrls⟩ bs
      · obtain ⟨mid, deref, size, time, f, attrs, ctrls, hv, he⟩ := h2
        have hsame : ∀ mid' deref' size' time' f' attrs' ctrls', Spec.Wire.Message.Valid ⟨mid', readOp dn deref' size' time' f' attrs', ctrls'⟩ →
            Spec.Wire.Message.enc Spec.Wire.x690 ⟨mid', readOp dn deref' size' time' f' attrs', ctrls'⟩ bs → mid' = mid ∧ attrs' = attrs := by
          intro mid' deref' size' time' f' attrs' ctrls' h3 h4
          have := read_once h3 h4 hv he
          simp only [Spec.Wire.Message.mk.injEq, readOp, Spec.Wire.Op.searchRequest.injEq] at this
          exact ⟨this.1, map_utf8_inj _ _ this.2.1.2.2.2.2.2.2.2⟩
        have hdone : ∀ code : Int, (zBytes code).length ≤ 5 → ∃ b, Spec.Wire.Message.Valid ⟨mid, .searchResDone (said code), none⟩ ∧ Spec.Wire.Message.enc Spec.Wire.x690 ⟨mid, .searchResDone (said code), none⟩ b := fun code hcode =>
          small_enc 0x65 (.searchResDone (said code)) code hcode rfl trivial mid hv.1
        by_cases hb : ∃ b, Spec.Wire.Message.enc Spec.Wire.x690 ⟨mid, entryOp dn (listing lower e attrs), none⟩ b
        · obtain ⟨b, hb⟩ := hb
          obtain ⟨pieces, hp⟩ := answer_one mid [entryOp dn (listing lower e attrs), .searchResDone (said 0)] (fun o ho => by
            rcases List.mem_cons.1 ho with rfl | ho
            · exact ⟨b, ⟨hv.1, trivial⟩, hb⟩
            · rw [List.mem_singleton.1 ho]
              exact hdone 0 (by decide))
          refine ⟨(e, pieces), fun mid' cs' ctrls' h3 h4 => absurd ⟨_, _, _, h3, h4⟩ h1, fun mid' deref' size' time' f' attrs' ctrls' h3 h4 => ?_⟩
          obtain ⟨rfl, rfl⟩ := hsame _ _ _ _ _ _ _ h3 h4
          exact ⟨⟨rfl, [(dn, listing lower e attrs')], said 0, by decide, rfl, hp, fun p hp => by rw [List.mem_singleton.1 hp]; exact ⟨listing_faithful lower e attrs', listing_asked lower e attrs'⟩⟩, fun _ _ => hp⟩
        · obtain ⟨pieces, hp⟩ := answer_one mid [.searchResDone (said 53)] (fun o ho => by
            rw [List.mem_singleton.1 ho]
            exact hdone 53 (by decide))
          refine ⟨(e, pieces), fun mid' cs' ctrls' h3 h4 => absurd ⟨_, _, _, h3, h4⟩ h1, fun mid' deref' size' time' f' attrs' ctrls' h3 h4 => ?_⟩
          obtain ⟨rfl, rfl⟩ := hsame _ _ _ _ _ _ _ h3 h4
          exact ⟨⟨rfl, [], said 53, by decide, rfl, hp, nofun⟩, fun b hb' => absurd ⟨b, hb'⟩ hb⟩
      · exact ⟨(e, []), fun mid' cs' ctrls' h3 h4 => absurd ⟨_, _, _, h3, h4⟩ h1, fun mid' deref' size' time' f' attrs' ctrls' h3 h4 => absurd ⟨_, _, _, _, _, _, _, h3, h4⟩ h2⟩
  refine ⟨fun e bs => Classical.choose (key e bs), ⟨?_, ?_⟩, ?_, ?_, ?_⟩
  · intro e bs mid cs ctrls hv he
    exact ((Classical.choose_spec (key e bs)).1 mid cs ctrls hv he).1
  · intro e bs mid deref size time f attrs ctrls hv he
    obtain ⟨a, found, r, b1, b2, b3, b4⟩ := ((Classical.choose_spec (key e bs)).2 mid deref size time f attrs ctrls hv he).1
    refine ⟨a, found, r, b1, b2, fun p hp => ?_, b3, fun _ p hp => (b4 p hp).1⟩
    have h := (b4 p hp).1.distinct
    rw [show p.2.map (fun q => lower q.1) = (p.2.map Prod.fst).map lower by rw [List.map_map]; rfl] at h
    exact List.Pairwise.of_map _ (fun a b hab hc => hab (by rw [hc])) h
  · intro e bs mid deref size time f attrs ctrls hv he
    obtain ⟨a, found, r, b1, b2, b3, b4⟩ := ((Classical.choose_spec (key e bs)).2 mid deref size time f attrs ctrls hv he).1
    refine ⟨a, found, r, b1, b2, fun p hp => ?_, b3, fun _ => b4⟩
    have h := (b4 p hp).1.distinct
    rw [show p.2.map (fun q => lower q.1) = (p.2.map Prod.fst).map lower by rw [List.map_map]; rfl] at h
    exact List.Pairwise.of_map _ (fun a b hab hc => hab (by rw [hc])) h
  · intro e bs mid cs ctrls e' hv he hm
    exact ((Classical.choose_spec (key e bs)).1 mid cs ctrls hv he).2 e' hm
  · intro e bs mid deref size time f attrs ctrls b hv he hb
    exact ((Classical.choose_spec (key e bs)).2 mid deref size time f attrs ctrls hv he).2 b hb

/-- **C88 (there are such servers).** For every DN, folding of names and equality of values there is a server that conforms, that makes every change RFC 4511 allows, and that finds the entry with the attributes
asked for whenever that can be sent at all. -/
theorem c88_server_exists (lower : Str → Str) (mo : Str → Bytes → Bytes → Bool) (dn : Str) :
    ∃ peer : OverWire.Peer (Spec.Entry Bytes), Conforms lower mo dn (fun e => e) peer ∧
      (∀ e bs mid cs ctrls e', Spec.Wire.Message.Valid ⟨mid, Spec.OverWireS.modifyOp dn cs, ctrls⟩ → Spec.Wire.Message.enc Spec.Wire.x690 ⟨mid, Spec.OverWireS.modifyOp dn cs, ctrls⟩ bs → srvModify lower mo e cs = .ok e' → (peer e bs).1 = e') ∧
      (∀ e bs mid deref size time f attrs ctrls b, Spec.Wire.Message.Valid ⟨mid, readOp dn deref size time f attrs, ctrls⟩ → Spec.Wire.Message.enc Spec.Wire.x690 ⟨mid, readOp dn deref size time f attrs, ctrls⟩ bs →
        Spec.Wire.Message.enc Spec.Wire.x690 ⟨mid, entryOp dn (listing lower e attrs), none⟩ b → Answered mid [entryOp dn (listing lower e attrs), .searchResDone (said 0)] (peer e bs).2) := by
  obtain ⟨peer, h1, _, h2⟩ := selective_exists lower mo dn
  exact ⟨peer, h1, h2⟩

/-! A run on octets: the entry has `cn` with the values `x` and the octet FF; the object fetches it, adds `y`, and is then refused a replacement. The other side keeps what it was sent. -/
def OverWireP.script : OverWire.Peer (List Bytes) := fun s bs =>
  (s ++ [bs], match s.length with
    | 0 => [[48, 27, 2, 1, 1, 100, 22, 4, 4, 99], [110, 61, 120, 48, 14, 48, 12, 4, 2, 99, 110, 49, 6, 4, 1, 120, 4, 1, 255, 48, 12, 2, 1, 1], [101, 7, 10, 1, 0, 4, 0, 4, 0]]
    | 1 => [[48], [12, 2, 1, 2, 103, 7, 10, 1, 0, 4, 0, 4, 0]]
    | _ => [[48, 12, 2, 1, 3, 103, 7, 10, 1, 50, 4, 0, 4, 0]])

def OverWireP.sampleEnv : OverWire.Env Unit Unit :=
  ⟨⟨false, [], ⟨false, true⟩, .ok (), str "cn=x", false⟩, none, ⟨false, 0, 0, true, true, .unified, str "(objectClass=*)", false, [], [], {}⟩, ⟨{}, true, true, [], [], fun _ => ([], none)⟩, [], []⟩

set_option maxRecDepth 100000 in
example :
    let w0 : World (List Bytes) := ⟨CIDict.empty, ⟨Session.St.init, []⟩⟩
    let run := fun w c => callOver lc (fun _ => .ok .default) OverWireP.script OverWireP.sampleEnv w c
    let w1 := run w0 (.refresh [str "cn"])
    let w2 := run w1.1 (.addAttrs [(str "CN", [.text (str "y")])])
    let w3 := run w2.1 (.replaceAttrs [(str "cn", .list [.text (str "z")])])
    w1.2 = .ok () ∧ AttrsDict.getAttr lc w1.1.obj (str "cn") = [.text (str "x"), .raw [255]] ∧
    w2.2 = .ok () ∧ AttrsDict.getAttr lc w2.1.obj (str "cn") = [.text (str "x"), .raw [255], .text (str "y")] ∧
    w3.2 = .error .ldapError ∧ AttrsDict.getAttr lc w3.1.obj (str "cn") = [.text (str "x"), .raw [255], .text (str "y")] ∧
    w3.1.link.peer.length = 3 ∧ w3.1.link.peer[1]? = some [48, 29, 2, 1, 2, 102, 24, 4, 4, 99, 110, 61, 120, 48, 16, 48, 14, 10, 1, 0, 48, 9, 4, 2, 67, 78, 49, 3, 4, 1, 121] := by
  decide +kernel

/-- The hypotheses of C88 can be met: values compared octet by octet, as the attribute types of a connection without schema do. -/
theorem OverWireP.octets_decide : Decides (fun _ => .ok (.default : AttrType AVal)) (onBytes (fun _ a b => decide (a = b))) (fun _ v => Spec.Wire.Shows v.bytes v) := by
  intro attr l v hl hv
  have h := c04_default_decides (V := AVal) attr l v (fun _ _ => trivial) trivial
  rw [h]
  have hfun : ∀ x ∈ l, (decide (x = v)) = onBytes (fun _ a b => decide (a = b)) attr x v := by
    intro x hx
    simp only [onBytes, decide_eq_decide]
    refine ⟨fun h => by rw [h], fun h => ?_⟩
    rw [← shown_bytes x (hl x hx), ← shown_bytes v hv, h]
  have hidx : ∀ l : List AVal, (∀ x ∈ l, (decide (x = v)) = onBytes (fun _ a b => decide (a = b)) attr x v) →
      l.findIdx? (fun x => decide (x = v)) = l.findIdx? (fun x => onBytes (fun _ a b => decide (a = b)) attr x v) := by
    intro l
    induction l with
    | nil => intro _; rfl
    | cons a l ih =>
      intro h
      rw [List.findIdx?_cons, List.findIdx?_cons, h a (by simp), ih (fun x hx => h x (List.mem_cons_of_mem _ hx))]
  simp only [hidx l hfun]

example (dn : Str) (e0 : Spec.Entry Bytes) : ∃ peer, Conforms lc (fun _ a b => decide (a = b)) dn (fun e => e) peer ∧
    let env : OverWire.Env Unit Unit := { OverWireP.sampleEnv with obj := { OverWireP.sampleEnv.obj with dn := dn } }
    let hist := [(env, ObjCall.refresh [str "cn"]), (env, .addAttrs [(str "CN", [.text (str "y"), .raw [255]]), (str "l", [.text (str "z")])]), (env, .deleteAttrs [(str "cN", .list [.text (str "x")])])]
    let f := World.after lc (fun _ => .ok .default) peer ⟨CIDict.empty, ⟨Session.St.init, e0⟩⟩ hist
    ∀ attr, AttrsDict.getAttr lc f.obj attr ≠ [] → ShowsExactly lc f.link.peer f.obj attr := by
  obtain ⟨peer, hp, _⟩ := c88_server_exists lc (fun _ a b => decide (a = b)) dn
  refine ⟨peer, hp, ?_⟩
  intro env hist
  have hy : Spec.Wire.Shows (AVal.bytes (.text (str "y"))) (.text (str "y")) := rfl
  have hx : Spec.Wire.Shows (AVal.bytes (.text (str "x"))) (.text (str "x")) := rfl
  have hz : Spec.Wire.Shows (AVal.bytes (.text (str "z"))) (.text (str "z")) := rfl
  have hr : Spec.Wire.Shows (AVal.bytes (.raw [255])) (.raw [255]) := by
    have := shown_ok [255]
    rwa [show WireP.shown [255] = .raw [255] by decide] at this
  refine c88_mirror (G := fun _ v => Spec.Wire.Shows v.bytes v) octets_decide ⟨fun _ _ _ => rfl, fun _ _ _ _ h => h⟩ (fun _ _ h => h) dn hp e0 ?_ hist ?_
  · intro a x hx
    obtain ⟨b, _, rfl⟩ := List.mem_map.1 hx
    rw [bytes_shown]
    exact shown_ok b
  · refine ⟨rfl, trivial, rfl, ⟨by decide, fun a _ => ⟨_, rfl⟩, ?_, nofun⟩, rfl, ⟨by decide, fun a _ => ⟨_, rfl⟩, ?_, nofun, fun _ kv hkv => by rw [List.mem_singleton.1 hkv]; nofun⟩, trivial⟩
    · intro kv hkv v hv
      simp only [List.mem_cons, List.not_mem_nil, or_false] at hkv
      rcases hkv with rfl | rfl
      · simp only [List.mem_cons, List.not_mem_nil, or_false] at hv
        rcases hv with rfl | rfl
        · exact hy
        · exact hr
      · rw [List.mem_singleton.1 hv]; exact hz
    · intro kv hkv v hv
      rw [List.mem_singleton.1 hkv] at hv
      rw [List.mem_singleton.1 hv]; exact hx

end
end Laurelin.Props
