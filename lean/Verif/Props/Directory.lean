import Verif.Props.OverWire
import Verif.Props.SearchRequest
import Verif.Spec.Directory
/-!
# C90 a history of calls on a connection is a history of the directory at its other end
-/
set_option linter.unusedSectionVars false
namespace Laurelin.Props
open Laurelin Codec Asn1 Rfc4511 Spec
namespace DirP
open Laurelin.Wire WireP WireR OverWire OverWireP Spec.OverWireS Spec.DirectoryS
section
variable {V R S D : Type} {dir : Directory D} {contents : S → D} {peer : Peer S} (env : Api.Env V R)

/-- a request that waits for one message, on a connection that is between two requests -/
theorem exchange_sent (l : Link Received.Decoded S) (hr : SessionP.Ready l.st) (c : Rfc4511.Call) :
    let x := Api.exchange codec (fun d => d.1.1) peer env l c
    (x.2 = .raises .asn1Error ∧ SessionP.Ready x.1.st ∧ x.1.peer = l.peer ∧ send l.st.next c.op env.wire = none) ∨
    ∃ bs o, Spec.Wire.asks c = some o ∧ (Spec.Wire.message l.st.next o env.wire).Valid ∧ (Spec.Wire.message l.st.next o env.wire).enc Spec.Wire.x690 bs ∧
      x.1.peer = (peer l.peer bs).1 ∧ ∀ o', Answered l.st.next [o'] (peer l.peer bs).2 →
        SessionP.Ready x.1.st ∧ x.2 = Session.finish env.conn.reg env.own c (messageV ⟨l.st.next, o', none⟩) := by
  intro x
  simp only [x, Api.exchange]
  cases hsend : send l.st.next c.op env.wire with
  | none => exact .inl ⟨rfl, ready_skip _ hr, rfl, rfl⟩
  | some bs =>
    right
    obtain ⟨o, ho, hv, _, henc⟩ := c79_sent _ _ _ _ hsend
    refine ⟨bs, o, ho, hv, henc, rfl, ?_⟩
    rintro o' ⟨bss, hp, hne, hfl⟩
    dsimp only
    generalize peer l.peer bs = p at hne hfl ⊢
    obtain ⟨h0, hch, hab, hq⟩ := hr
    obtain ⟨ds, hds1, hds2, hds3⟩ := answered_decoded _ _ _ hp
    match ds, hds1, hds2, hds3 with
    | [ans], hds1, hds2, hds3 =>
      simp only [List.map_cons, List.map_nil, List.cons.injEq, and_true] at hds1
      have hmid : codec.mid ans = l.st.next := by simpa using hds3 ans (by simp)
      obtain ⟨s', r1, r2, r3, r4⟩ := SessionP.recvOne_last codec l.st.next ans hmid [] { l.st.sock with chunks := l.st.sock.chunks ++ p.2 } (by rw [hch]; exact hne)
        (by
          show (l.st.sock.chunks ++ p.2).flatten = _
          rw [hch, List.nil_append, List.nil_append, hfl, ← hds2]) nofun (hq _ (Nat.le_refl _)) hab
      simp only [Session.request, hsend, r1, hds1]
      refine ⟨⟨Nat.succ_pos _, r2, r3, fun j hj => ?_⟩, trivial⟩
      rw [r4 j (Nat.le_of_succ_le hj)]
      exact hq j (Nat.le_of_succ_le hj)
    | [], hds1, _, _ => simp at hds1
    | _ :: _ :: _, hds1, _, _ => simp at hds1

theorem exchange_cases (l : Link Received.Decoded S) (hr : SessionP.Ready l.st) (c : Rfc4511.Call) :
    let x := Api.exchange codec (fun d => d.1.1) peer env l c
    (x.2 = .raises .asn1Error ∧ SessionP.Ready x.1.st ∧ x.1.peer = l.peer) ∨
    ∃ bs o, Spec.Wire.asks c = some o ∧ (Spec.Wire.message l.st.next o env.wire).Valid ∧ (Spec.Wire.message l.st.next o env.wire).enc Spec.Wire.x690 bs ∧
      x.1.peer = (peer l.peer bs).1 ∧ ∀ o', Answered l.st.next [o'] (peer l.peer bs).2 →
        SessionP.Ready x.1.st ∧ x.2 = Session.finish env.conn.reg env.own c (messageV ⟨l.st.next, o', none⟩) :=
  (exchange_sent env l hr c).imp (fun h => ⟨h.1, h.2.1, h.2.2.1⟩) id

/-- an update -/
theorem update_step (hs : Serves dir contents peer) (l : Link Received.Decoded S) (hr : SessionP.Ready l.st) (c : Rfc4511.Call) (hc : SessionS.Single c) (op : Spec.Wire.Op) (resp : Spec.Wire.Result → Spec.Wire.Op)
    (ho : Spec.Wire.asks c = some op) (hresp : respond op = some resp)
    (hS : ∀ r : Spec.Wire.Result, r.code = 0 → SessionS.Succeeds c (resp r) .done) (hF : ∀ r : Spec.Wire.Result, r.code ≠ 0 → SessionS.Fails c (resp r)) :
    let x := Api.exchange codec (fun d => d.1.1) peer env l c
    SessionP.Ready x.1.st ∧ ((Api.unitOf x.2 = .ok () ∧ dir.updated (contents l.peer) op (contents x.1.peer)) ∨ ((∃ e, Api.unitOf x.2 = .error e) ∧ contents x.1.peer = contents l.peer)) := by
  intro x
  rcases exchange_cases (peer := peer) env l hr c with ⟨h1, h2, h3⟩ | ⟨bs, o, h1, h2, h3, h4, h5⟩
  · refine ⟨h2, .inr ⟨⟨.asn1Error, by rw [show x.2 = _ from h1]; rfl⟩, by rw [show x.1.peer = _ from h3]⟩⟩
  · rw [ho] at h1
    cases h1
    obtain ⟨r, ha, hcase⟩ := hs.update l.peer bs _ op resp _ hresp h2 h3
    obtain ⟨g1, g2⟩ := h5 _ ha
    obtain ⟨f1, f2, _⟩ := SessionP.finish_ends env.conn.reg env.own c hc ⟨l.st.next, resp r, none⟩ rfl
    refine ⟨g1, ?_⟩
    rw [show x.2 = _ from g2, show x.1.peer = _ from h4]
    rcases hcase with ⟨k1, k2⟩ | ⟨k1, k2⟩
    · left
      rw [f1 .done (hS r k1)]
      exact ⟨rfl, k2⟩
    · right
      rw [f2 (hF r k1)]
      exact ⟨⟨_, rfl⟩, k2⟩

/-- a comparison -/
theorem compare_step (hs : Serves dir contents peer) (l : Link Received.Decoded S) (hr : SessionP.Ready l.st) (dn attr value : Str) :
    let x := Api.exchange codec (fun d => d.1.1) peer env l (.compare dn attr value)
    SessionP.Ready x.1.st ∧ contents x.1.peer = contents l.peer ∧
      ((∃ e, x.2 = .raises e) ∨ ∃ b, x.2 = .returns (.truth b) ∧ (b = true ↔ dir.holds (contents l.peer) (utf8Enc dn) (utf8Enc attr) (utf8Enc value))) := by
  intro x
  rcases exchange_cases (peer := peer) env l hr (.compare dn attr value) with ⟨h1, h2, h3⟩ | ⟨bs, o, h1, h2, h3, h4, h5⟩
  · exact ⟨h2, by rw [show x.1.peer = _ from h3], .inl ⟨_, h1⟩⟩
  · cases h1
    obtain ⟨he, r, ha, ht, hf⟩ := hs.compare l.peer bs _ _ _ _ _ h2 h3
    obtain ⟨g1, g2⟩ := h5 _ ha
    obtain ⟨f1, f2, _⟩ := SessionP.finish_ends env.conn.reg env.own (.compare dn attr value) trivial ⟨l.st.next, .compareResponse r, none⟩ rfl
    refine ⟨g1, by rw [show x.1.peer = _ from h4, he], ?_⟩
    rw [show x.2 = _ from g2]
    by_cases k6 : r.code = 6
    · exact .inr ⟨true, f1 _ (.inl ⟨k6, rfl⟩), by simp [ht k6]⟩
    · by_cases k5 : r.code = 5
      · exact .inr ⟨false, f1 _ (.inr ⟨k5, rfl⟩), by simp [hf k5]⟩
      · exact .inl ⟨_, f2 ⟨k6, k5⟩⟩

/-! ## Searching -/

/-- the iteration of a search result of entries: a tag given for it can be taken by one of them only -/
theorem iterate_tagged (senv : Search.Env V R Received.Entry) (t : Controls.Target R) (code : Nat) (h10 : code ≠ 10) (es : List Received.Entry) : ∀ tag : Option Bool,
    let ms := es.map (fun e => Search.Msg.entry e []) ++ [.done code [] []]
    (tag ≠ none ∧ (Search.iterate senv tag t ms).ending = .raised .tagError) ∨
    ((Search.iterate senv tag t ms).yields = es.map (fun e => .entry e []) ∧ (Search.iterate senv tag t ms).ending = (if code = 0 ∨ code = 32 then .stop else .raised .ldapError) ∧
      ∀ k, k < es.length → (Search.iterate senv tag t (ms.take (k + 1))).ending = .waiting) := by
  induction es with
  | nil =>
    intro tag ms
    right
    simp only [ms, List.map_nil, List.nil_append, Search.iterate, Search.rcSuccess, Search.rcNoSuchObject, Search.rcReferral, if_neg h10, Controls.handleResponse]
    split <;> exact ⟨rfl, rfl, nofun⟩
  | cons e es ih =>
    intro tag ms
    by_cases ht : tag = some true
    · left
      refine ⟨by rw [ht]; nofun, ?_⟩
      simp only [ms, List.map_cons, List.cons_append, Search.iterate, if_pos ht]
    · simp only [ms, List.map_cons, List.cons_append, Search.iterate, if_neg ht, Controls.handleResponse, Search.Out.after, List.take_succ_cons]
      rcases ih (tag.map fun _ => true) with ⟨h0, h⟩ | ⟨h1, h2, h3⟩
      · exact .inl ⟨fun hn => h0 (by rw [hn]; rfl), h⟩
      · refine .inr ⟨by rw [h1]; rfl, h2, fun k hk => ?_⟩
        cases k with
        | zero => simp only [List.take_zero, Search.iterate]
        | succ k => exact h3 k (Nat.lt_of_succ_lt_succ hk)

theorem takes_last (ends : List (Search.Msg Received.Entry) → Bool) (ms : List (Search.Msg Received.Entry)) (n : Nat) (hn : ms.length = n + 1) (h0 : ∀ k, k < n → ends (ms.take (k + 1)) = false)
    (h1 : ends ms = true) : Api.takes ends ms = some (n + 1) := by
  have : (List.range ms.length).find? (fun k => ends (ms.take (k + 1))) = some n := by
    rw [List.find?_range_eq_some]
    refine ⟨?_, by rw [hn]; simp, fun j hj => by rw [h0 j hj]; rfl⟩
    show ends (ms.take (n + 1)) = true
    rw [← hn, List.take_length]
    exact h1
  rw [Api.takes, this]
  rfl

/-- results as they are shown -/
def show1 (e : Found) : Received.Entry := (e.1, e.2.map (fun p => (p.1, p.2.map shown)))

theorem shown_list (l : List Bytes) : Pairwise2 Spec.Wire.Shows l (l.map shown) := by
  induction l with
  | nil => exact .nil
  | cons a l ih => exact .cons (shown_ok a) ih

theorem shown_attrs (l : List (Str × List Bytes)) : Pairwise2 (fun (p : Str × List Bytes) (q : Str × List AVal) => q.1 = p.1 ∧ Pairwise2 Spec.Wire.Shows p.2 q.2) l (l.map (fun p => (p.1, p.2.map shown))) := by
  induction l with
  | nil => exact .nil
  | cons a l ih => exact .cons ⟨rfl, shown_list _⟩ ih

theorem shown_found (found : List Found) : Shown (R := R) found (found.map (fun e => .entry (show1 e) [])) := by
  induction found with
  | nil => exact .nil
  | cons e l ih => exact .cons ⟨_, rfl, shown_attrs _⟩ ih

theorem search_request (conn : SearchConn V R) (a : SearchArgs V) (sent : SearchSent V) (h : ldapSearch conn a = .ok sent) (op : Spec.Wire.Op)
    (ho : Spec.Wire.asks (.search sent.req) = some op) : SearchFor conn a op ∧ IsSearch op := by
  have hA := ((c65_sent conn a sent).1 h).2
  simp only [Spec.Wire.asks, Option.map_eq_some_iff] at ho
  obtain ⟨n, hn, rfl⟩ := ho
  refine ⟨⟨n, sent.req.filter, ?_, hA.filter, ?_⟩, trivial⟩
  · rw [← hA.scope]; exact hn
  · rw [hA.base, hA.deref, hA.limit, hA.timeout, hA.typesOnly, hA.attrs]

theorem c65_no_kwds (conn : SearchConn V R) (a : SearchArgs V) (sent : SearchSent V) (h : ldapSearch conn a = .ok sent) (hk : a.kwds = []) : sent.objKwds = [] := by
  rw [((c65_sent conn a sent).1 h).2.rest, hk]
  rfl

/-- a search that is answered this way; `P` are requests that are not refused -/
theorem searchAll_all (P : Spec.Wire.Op → Prop) (l : Link Received.Decoded S) (hr : SessionP.Ready l.st) (a : SearchArgs V)
    (hs : ∀ bs op ctrls, IsSearch op → Spec.Wire.Message.Valid ⟨l.st.next, op, ctrls⟩ → Spec.Wire.Message.enc Spec.Wire.x690 ⟨l.st.next, op, ctrls⟩ bs →
      contents (peer l.peer bs).1 = contents l.peer ∧
      ∃ (found : List Found) (r : Spec.Wire.Result), r.code ≠ 10 ∧ r.referral = none ∧ (∀ e ∈ found, (e.2.map Prod.fst).Nodup) ∧ Answered l.st.next (found.map Spec.DirectoryS.entryOp ++ [.searchResDone r]) (peer l.peer bs).2 ∧
        (r.code = 0 → dir.finds (contents l.peer) op found) ∧ (r.code = 32 → found = [] ∧ dir.finds (contents l.peer) op []) ∧ (P op → r.code = 0 ∨ r.code = 32)) :
    let x := Api.searchAll codec (fun d => d.1.1) peer env l a
    contents x.1.peer = contents l.peer ∧
    (∀ items, x.2 = .ok items → ∃ op found, SearchFor env.conn a op ∧ dir.finds (contents l.peer) op found ∧ Shown found items) ∧
    (x.2 ≠ .error .tagError → x.2 ≠ .error .typeError → SessionP.Ready x.1.st) ∧
    (a.kwds = [] → x.2 ≠ .error .noResults ∧ x.2 ≠ .error .multipleResults) ∧
    (a.kwds = [] → ∀ sent bs op, ldapSearch env.conn a = .ok sent → send l.st.next (Call.search sent.req).op sent.ctrls = some bs → Spec.Wire.asks (.search sent.req) = some op → P op →
      ∃ items, x.2 = .ok items) ∧
    (a.kwds = [] → x.2 ≠ .error .tagError ∧ x.2 ≠ .error .typeError) := by
  intro x
  simp only [x, Api.searchAll]
  cases hsr : ldapSearch env.conn a with
  | error e =>
    have hw := c65_refused env.conn a e hsr
    have hk0 : a.kwds = [] → e ≠ .noResults ∧ e ≠ .multipleResults ∧ e ≠ .tagError ∧ e ≠ .typeError := by
      intro hk
      cases hw with
      | control kv _ hkv => rw [hk] at hkv; cases hkv
      | unbound => exact ⟨nofun, nofun, nofun, nofun⟩
      | filter => exact ⟨nofun, nofun, nofun, nofun⟩
      | emptyName => exact ⟨nofun, nofun, nofun, nofun⟩
      | feature => exact ⟨nofun, nofun, nofun, nofun⟩
      | keyword kv hkv => rw [hk] at hkv; cases hkv
    refine ⟨rfl, nofun, fun _ _ => hr, fun hk => ?_, fun _ sent bs op h => (by cases h), fun hk => ?_⟩
    · exact ⟨fun h => (hk0 hk).1 (by cases h; rfl), fun h => (hk0 hk).2.1 (by cases h; rfl)⟩
    · exact ⟨fun h => (hk0 hk).2.2.1 (by cases h; rfl), fun h => (hk0 hk).2.2.2 (by cases h; rfl)⟩
  | ok sent =>
    simp only []
    cases hsend : send l.st.next (Call.search sent.req).op sent.ctrls with
    | none => exact ⟨rfl, nofun, fun _ _ => ready_skip _ hr, fun _ => ⟨nofun, nofun⟩, fun _ sent' bs op h h' => (by cases h; rw [hsend] at h'; cases h'), fun _ => ⟨nofun, nofun⟩⟩
    | some bs =>
      obtain ⟨op, ho, hv, _, henc⟩ := c79_sent _ _ _ _ hsend
      obtain ⟨hfor, his⟩ := search_request _ _ _ hsr op ho
      obtain ⟨he, found, r, h10, href, hnames, ⟨bss, hp, hne, hfl⟩, hok, h32, hP⟩ := hs bs op _ his hv henc
      dsimp only
      generalize peer l.peer bs = p at he hne hfl ⊢
      obtain ⟨h0, hch, hab, hq⟩ := hr
      have hid : Spec.Wire.Int0Max l.st.next := hv.1
      obtain ⟨ds, hds1, hds2, hds3⟩ := answered_decoded _ _ _ hp
      rw [List.map_append] at hds1
      obtain ⟨ms, last, rfl, hms, hlast⟩ := map_append_split _ _ _ _ hds1
      have hmids : ∀ m ∈ ms, codec.mid m = l.st.next := fun m hm => by simpa using hds3 m (by simp [hm])
      have hlm : codec.mid last = l.st.next := by simpa using hds3 last (by simp)
      have hsee : (found.map Spec.DirectoryS.entryOp).map (fun o => Received.searchMsg (messageV ⟨l.st.next, o, none⟩)) =
          ((found.map show1).map (fun e => Search.Msg.entry e [])).map some := by
        simp only [List.map_map]
        apply List.map_congr_left
        intro e hm
        obtain ⟨b, _, hb⟩ := pairwise_mem hp (Spec.DirectoryS.entryOp e) (List.mem_append_left _ (List.mem_map.2 ⟨e, hm, rfl⟩))
        exact entry_seen _ hid e.1 e.2 (hnames e hm) b hb
      have hlen : ms.length = found.length := by
        have := congrArg List.length hms
        simpa using this
      have hbytes : (l.st.sock.chunks ++ p.2).flatten = (ms ++ [last]).flatMap codec.enc := by rw [hch, List.nil_append, hfl, ← hds2]
      have hcol := fun n hn => collect_run codec (fun d => d.1.1) l.st.next last hlm (Received.codeOf r.code) [] []
        (by rw [hlast]; exact done_view _ r href) ms _ n (.top []) [] { l.st.sock with chunks := l.st.sock.chunks ++ p.2 } hmids
        (by
          rw [← hsee, show ms.map (fun m => Received.searchMsg m.1.1) = (ms.map (fun d => d.1.1)).map Received.searchMsg by rw [List.map_map]; rfl, hms]
          simp only [List.map_map]
          rfl)
        (by
          intro x hx
          obtain ⟨e, _, rfl⟩ := List.mem_map.1 hx
          exact ⟨_, _, rfl⟩) (.inl ⟨rfl, rfl⟩) (by rw [hch]; exact hne) (by
          show [] ++ (l.st.sock.chunks ++ p.2).flatten = _
          rw [List.nil_append, hbytes]) hn (hq _ (Nat.le_refl _)) hab
      have hfuel : ms.length < (l.st.sock.chunks ++ p.2).flatten.length + 1 := by
        rw [hbytes]
        have : ∀ ds : List Received.Decoded, ds.length ≤ (ds.flatMap codec.enc).length := by
          intro ds
          induction ds with
          | nil => simp
          | cons d ds ih =>
            have h1 : 0 < (codec.enc d).length := by
              rcases Nat.eq_zero_or_pos (codec.enc d).length with h | h
              · exact absurd (List.length_eq_zero_iff.1 h) (codec.enc_ne d)
              · exact h
            simp only [List.flatMap_cons, List.length_append, List.length_cons]
            omega
        have := this (ms ++ [last])
        simp only [List.length_append, List.length_cons, List.length_nil] at this ⊢
        omega
      have hready : SessionP.Ready ⟨l.st.next + 1, ({ l.st.sock with chunks := [] } : Net.Sock UInt8 Received.Decoded)⟩ := ⟨Nat.succ_pos _, rfl, hab, fun j hj => hq j (Nat.le_of_succ_le hj)⟩
      simp only [hcol _ hfuel]
      refine ⟨he, ?_⟩
      generalize htag : (if sent.objKwds.any (fun kv => decide (kv.1 = str "tag")) = true then some env.tagUsed else none) = tag
      generalize hsenv : ({ env.results with fetchRefs := sent.fetchRefs, follow := sent.follow } : Search.Env V R Received.Entry) = senv
      generalize ht : (⟨env.handleOwn, []⟩ : Controls.Target R) = t
      have hany : (((found.map show1).map (fun e => Search.Msg.entry e []) ++ [Search.Msg.done (Received.codeOf r.code) [] []]).any Api.isEntry) = !found.isEmpty := by
        cases found with
        | nil => rfl
        | cons e l => rfl
      rw [hany]
      by_cases hfail : (Api.reservedKwd sent.objKwds && !found.isEmpty) = true
      · simp only [hfail, if_true]
        have hnil : ((found.map show1).map (fun e => Search.Msg.entry e []) ++ [Search.Msg.done (Received.codeOf r.code) [] []]).takeWhile (fun m => !Api.isEntry m) = [] := by
          cases found with
          | nil => simp at hfail
          | cons e l => rfl
        rw [hnil]
        simp only [Search.iterate]
        refine ⟨nofun, fun _ h => absurd rfl h, fun _ => ⟨nofun, nofun⟩, fun hk sent' bs' op' h1 => ?_, fun hk => ?_⟩
        · cases h1
          rw [c65_no_kwds _ _ _ hsr hk] at hfail
          cases hfail
        · rw [c65_no_kwds _ _ _ hsr hk] at hfail
          cases hfail
      · simp only [hfail]
        simp only [Bool.false_eq_true, if_false]
        rcases iterate_tagged senv t (Received.codeOf r.code) (fun h => h10 ((SessionP.code_iff r.code 10 (by decide)).1 h)) (found.map show1) tag with ⟨h0, h⟩ | ⟨h1, h2, h3⟩
        · simp only [h]
          refine ⟨nofun, fun h => absurd rfl h, fun _ => ⟨nofun, nofun⟩, fun hk sent' bs' op' h1 => ?_, fun hk => ?_⟩
          · cases h1
            rw [c65_no_kwds _ _ _ hsr hk] at htag
            exact absurd htag.symm h0
          · rw [c65_no_kwds _ _ _ hsr hk] at htag
            exact absurd htag.symm h0
        · simp only [h1, h2]
          refine ⟨?_, ?_, fun _ => ?_, fun hk sent' bs' op' h1 _ ho' hP' => ?_, fun _ => ?_⟩
          · intro items hi
            by_cases hcode : Received.codeOf r.code = 0 ∨ Received.codeOf r.code = 32
            · simp only [if_pos hcode, Except.ok.injEq] at hi
              subst hi
              refine ⟨op, found, hfor, ?_, ?_⟩
              · rcases hcode with h | h
                · exact hok ((SessionP.code_iff r.code 0 (by decide)).1 h)
                · obtain ⟨k1, k2⟩ := h32 ((SessionP.code_iff r.code 32 (by decide)).1 h)
                  rw [k1]; exact k2
              · have := shown_found (R := R) found
                simpa [List.map_map, Function.comp_def] using this
            · simp only [if_neg hcode] at hi
              cases hi
          · intro _ _
            rw [takes_last _ _ found.length (by simp) ?_ ?_]
            · simp only [hcol (found.length + 1) (by omega)]
              exact hready
            · intro k hk
              simp only [Api.ended, h3 k (by simpa using hk), Bool.or_false]
              have : Api.reservedKwd sent.objKwds = false := by
                cases found with
                | nil => simp at hk
                | cons e l => simpa using hfail
              rw [this]; rfl
            · simp only [Api.ended, h2]
              by_cases hcode : Received.codeOf r.code = 0 ∨ Received.codeOf r.code = 32
              · simp only [if_pos hcode, Bool.or_true]
              · simp only [if_neg hcode, Bool.or_true]
          · by_cases hcode : Received.codeOf r.code = 0 ∨ Received.codeOf r.code = 32
            · simp only [if_pos hcode]
              exact ⟨nofun, nofun⟩
            · simp only [if_neg hcode]
              exact ⟨nofun, nofun⟩
          · cases h1
            rw [ho] at ho'
            cases ho'
            have hcode : Received.codeOf r.code = 0 ∨ Received.codeOf r.code = 32 := (hP hP').imp (SessionP.code_iff r.code 0 (by decide)).2 (SessionP.code_iff r.code 32 (by decide)).2
            simp only [if_pos hcode]
            exact ⟨_, rfl⟩
          · by_cases hcode : Received.codeOf r.code = 0 ∨ Received.codeOf r.code = 32
            · simp only [if_pos hcode]
              exact ⟨nofun, nofun⟩
            · simp only [if_neg hcode]
              exact ⟨nofun, nofun⟩

theorem searchAll_gen (P : Spec.Wire.Op → Prop) (l : Link Received.Decoded S) (hr : SessionP.Ready l.st) (a : SearchArgs V)
    (hs : ∀ bs op ctrls, IsSearch op → Spec.Wire.Message.Valid ⟨l.st.next, op, ctrls⟩ → Spec.Wire.Message.enc Spec.Wire.x690 ⟨l.st.next, op, ctrls⟩ bs →
      contents (peer l.peer bs).1 = contents l.peer ∧
      ∃ (found : List Found) (r : Spec.Wire.Result), r.code ≠ 10 ∧ r.referral = none ∧ (∀ e ∈ found, (e.2.map Prod.fst).Nodup) ∧ Answered l.st.next (found.map Spec.DirectoryS.entryOp ++ [.searchResDone r]) (peer l.peer bs).2 ∧
        (r.code = 0 → dir.finds (contents l.peer) op found) ∧ (r.code = 32 → found = [] ∧ dir.finds (contents l.peer) op []) ∧ (P op → r.code = 0 ∨ r.code = 32)) :
    let x := Api.searchAll codec (fun d => d.1.1) peer env l a
    contents x.1.peer = contents l.peer ∧
    (∀ items, x.2 = .ok items → ∃ op found, SearchFor env.conn a op ∧ dir.finds (contents l.peer) op found ∧ Shown found items) ∧
    (x.2 ≠ .error .tagError → x.2 ≠ .error .typeError → SessionP.Ready x.1.st) ∧
    (a.kwds = [] → x.2 ≠ .error .noResults ∧ x.2 ≠ .error .multipleResults) ∧
    (a.kwds = [] → ∀ sent bs op, ldapSearch env.conn a = .ok sent → send l.st.next (Call.search sent.req).op sent.ctrls = some bs → Spec.Wire.asks (.search sent.req) = some op → P op →
      ∃ items, x.2 = .ok items) := by
  intro x
  obtain ⟨h1, h2, h3, h4, h5, _⟩ := searchAll_all (dir := dir) (contents := contents) (peer := peer) env P l hr a hs
  exact ⟨h1, h2, h3, h4, h5⟩

theorem searchAll_step (hs : Serves dir contents peer) (l : Link Received.Decoded S) (hr : SessionP.Ready l.st) (a : SearchArgs V) :
    let x := Api.searchAll codec (fun d => d.1.1) peer env l a
    contents x.1.peer = contents l.peer ∧
    (∀ items, x.2 = .ok items → ∃ op found, SearchFor env.conn a op ∧ dir.finds (contents l.peer) op found ∧ Shown found items) ∧
    (x.2 ≠ .error .tagError → x.2 ≠ .error .typeError → SessionP.Ready x.1.st) ∧
    (a.kwds = [] → x.2 ≠ .error .noResults ∧ x.2 ≠ .error .multipleResults) := by
  have h := searchAll_gen (dir := dir) (contents := contents) (peer := peer) env (fun _ => False) l hr a (fun bs op ctrls h1 h2 h3 => by
    obtain ⟨k0, found, r, k1, k2, k3, k4, k5, k6⟩ := hs.search l.peer bs _ op ctrls h1 h2 h3
    exact ⟨k0, found, r, k1, k2, k3, k4, k5, k6, False.elim⟩)
  exact ⟨h.1, h.2.1, h.2.2.1, h.2.2.2.1⟩

theorem searchAll_plain (hs : Serves dir contents peer) (l : Link Received.Decoded S) (hr : SessionP.Ready l.st) (a : SearchArgs V) (hk : a.kwds = []) :
    let x := Api.searchAll codec (fun d => d.1.1) peer env l a
    x.2 ≠ .error .tagError ∧ x.2 ≠ .error .typeError := by
  have h := searchAll_all (dir := dir) (contents := contents) (peer := peer) env (fun _ => False) l hr a (fun bs op ctrls h1 h2 h3 => by
    obtain ⟨k0, found, r, k1, k2, k3, k4, k5, k6⟩ := hs.search l.peer bs _ op ctrls h1 h2 h3
    exact ⟨k0, found, r, k1, k2, k3, k4, k5, k6, False.elim⟩)
  exact h.2.2.2.2.2 hk

/-! ## What is asked for -/

theorem split_spec (s : Str) : ∀ (prev : Bool) (rdn parent : Str), splitUnescaped prev s = some (rdn, parent) →
    s = rdn ++ str "," ++ parent ∧ ∀ a b, rdn = a ++ str "," ++ b → (a = [] ∧ prev = true) ∨ a.getLast? = some '\\' := by
  induction s with
  | nil => intro prev rdn parent h; simp [splitUnescaped] at h
  | cons c t ih =>
    intro prev rdn parent h
    rw [splitUnescaped] at h
    by_cases hc : c = ',' ∧ prev = false
    · rw [if_pos hc] at h
      simp only [Option.some.injEq, Prod.mk.injEq] at h
      obtain ⟨rfl, rfl⟩ := h
      refine ⟨by rw [hc.1]; rfl, fun a b hab => ?_⟩
      exfalso
      have := congrArg List.length hab
      simp at this
    · rw [if_neg hc] at h
      simp only [Option.map_eq_some_iff, Prod.exists, Prod.mk.injEq] at h
      obtain ⟨r, q, h1, rfl, rfl⟩ := h
      obtain ⟨g1, g2⟩ := ih _ _ _ h1
      refine ⟨by rw [g1]; rfl, fun a b hab => ?_⟩
      cases a with
      | nil =>
        left
        have h2 : c = ',' := by
          have := congrArg List.head? hab
          simpa using this
        refine ⟨rfl, ?_⟩
        cases prev with
        | true => rfl
        | false => exact absurd ⟨h2, rfl⟩ hc
      | cons x a =>
        right
        simp only [List.cons_append, List.cons.injEq] at hab
        obtain ⟨rfl, hab⟩ := hab
        rcases g2 a b (by simpa using hab) with ⟨rfl, hx⟩ | hl
        · simp only [beq_iff_eq] at hx
          subst hx
          rfl
        · cases a with
          | nil => simp at hl
          | cons y a => rw [List.getLast?_cons_cons]; exact hl

theorem changes_sent (o : EmptyOpts) (mods : List (Mod AVal)) : ∀ cs, (buildChanges o mods).2 = .ok cs → cs.map toBytes = mods.filterMap (changeOf o) := by
  induction mods with
  | nil =>
    intro cs h
    simp only [buildChanges, Except.ok.injEq] at h
    subst h
    rfl
  | cons md rest ih =>
    obtain ⟨op, attr, vals⟩ := md
    intro cs h
    match op, vals with
    | .add, .deleteAll => simp [buildChanges] at h
    | .add, .list [] => exact (by
      simp only [buildChanges] at h
      cases hb : (buildChanges o rest).2 with
      | error e => rw [hb] at h; cases h
      | ok cs' =>
        rw [hb] at h
        cases h
        rw [List.map_cons, ih cs' hb]
        rfl)
    | .add, .list (v :: l) => exact (by
      simp only [buildChanges] at h
      cases hb : (buildChanges o rest).2 with
      | error e => rw [hb] at h; cases h
      | ok cs' =>
        rw [hb] at h
        cases h
        rw [List.map_cons, ih cs' hb]
        rfl)
    | .replace, .deleteAll => exact (by
      simp only [buildChanges] at h
      cases hb : (buildChanges o rest).2 with
      | error e => rw [hb] at h; cases h
      | ok cs' =>
        rw [hb] at h
        cases h
        rw [List.map_cons, ih cs' hb]
        rfl)
    | .delete, .deleteAll => exact (by
      simp only [buildChanges] at h
      cases hb : (buildChanges o rest).2 with
      | error e => rw [hb] at h; cases h
      | ok cs' =>
        rw [hb] at h
        cases h
        rw [List.map_cons, ih cs' hb]
        rfl)
    | .replace, .list (v :: l) => exact (by
      simp only [buildChanges] at h
      cases hb : (buildChanges o rest).2 with
      | error e => rw [hb] at h; cases h
      | ok cs' =>
        rw [hb] at h
        cases h
        rw [List.map_cons, ih cs' hb]
        rfl)
    | .delete, .list (v :: l) => exact (by
      simp only [buildChanges] at h
      cases hb : (buildChanges o rest).2 with
      | error e => rw [hb] at h; cases h
      | ok cs' =>
        rw [hb] at h
        cases h
        rw [List.map_cons, ih cs' hb]
        rfl)
    | .replace, .list [] =>
      simp only [buildChanges] at h
      by_cases h1 : o.error = true
      · rw [if_pos h1] at h; cases h
      · rw [if_neg h1] at h
        by_cases h2 : o.ignore = true
        · rw [if_pos h2] at h
          rw [ih cs h, List.filterMap_cons_none (by simp [changeOf, h2])]
        · rw [if_neg h2] at h
          cases hb : (buildChanges o rest).2 with
          | error e => rw [hb] at h; cases h
          | ok cs' =>
            rw [hb] at h
            cases h
            rw [List.map_cons, ih cs' hb, List.filterMap_cons_some (b := ⟨.replace, attr, []⟩) (by simp [changeOf, h2])]
            rfl
    | .delete, .list [] =>
      simp only [buildChanges] at h
      by_cases h1 : o.error = true
      · rw [if_pos h1] at h; cases h
      · rw [if_neg h1] at h
        by_cases h2 : o.ignore = true
        · rw [if_pos h2] at h
          rw [ih cs h, List.filterMap_cons_none (by simp [changeOf, h2])]
        · rw [if_neg h2] at h
          cases hb : (buildChanges o rest).2 with
          | error e => rw [hb] at h; cases h
          | ok cs' =>
            rw [hb] at h
            cases h
            rw [List.map_cons, ih cs' hb, List.filterMap_cons_some (b := ⟨.delete, attr, []⟩) (by simp [changeOf, h2])]
            rfl

/-- the object that `add` returns has the values given, and no others -/
theorem added_object (lower : Str → Str) (attrs : List (Str × List AVal)) (h : (attrs.map (fun kv => lower kv.1)).Nodup) :
    (∀ kv ∈ attrs, AttrsDict.getAttr lower (CIDict.update lower CIDict.empty attrs) kv.1 = kv.2) ∧
    ∀ a, (∀ kv ∈ attrs, lower kv.1 ≠ lower a) → AttrsDict.getAttr lower (CIDict.update lower CIDict.empty attrs) a = [] := by
  obtain ⟨h1, h2⟩ := CIDict.update_ok lower attrs (CIDict.empty : AttrsDict AVal) (CIDict.inv_empty lower)
  have key : ∀ (l : List (Str × List AVal)) (acc : FoldMap Str (List AVal)), (l.map (fun kv => lower kv.1)).Nodup →
      (∀ x, x ∉ l.map (fun kv => lower kv.1) → (l.foldl (fun acc kv => FoldMap.put lower acc kv.1 kv.2) acc) x = acc x) ∧
      ∀ kv ∈ l, (l.foldl (fun acc kv => FoldMap.put lower acc kv.1 kv.2) acc) (lower kv.1) = some kv.2 := by
    intro l
    induction l with
    | nil => intro acc _; exact ⟨fun _ _ => rfl, nofun⟩
    | cons p l ih =>
      intro acc hn
      simp only [List.map_cons, List.nodup_cons] at hn
      obtain ⟨g1, g2⟩ := ih (FoldMap.put lower acc p.1 p.2) hn.2
      simp only [List.foldl_cons]
      constructor
      · intro x hx
        simp only [List.map_cons, List.mem_cons, not_or] at hx
        rw [g1 x hx.2]
        simp only [FoldMap.put, if_neg hx.1]
      · intro kv hkv
        rcases List.mem_cons.1 hkv with rfl | hkv
        · rw [g1 _ hn.1]
          simp only [FoldMap.put, if_true]
        · exact g2 kv hkv
  constructor
  · intro kv hkv
    rw [getAttr_abs lower _ h1, h2, (key attrs _ h).2 kv hkv]
    rfl
  · intro a ha
    rw [getAttr_abs lower _ h1, h2, (key attrs _ h).1 (lower a) (fun hm => by
      obtain ⟨kv, hkv, he⟩ := List.mem_map.1 hm
      exact ha kv hkv he)]
    rfl

/-! ## Calls -/

theorem getOne_step (hs : Serves dir contents peer) (l : Link Received.Decoded S) (hr : SessionP.Ready l.st) (dn : Str) (attrs : Option (List Str)) (kwds : PDict Str (Controls.Kwd V)) :
    let x := Api.getOne codec (fun d => d.1.1) peer env l dn attrs kwds
    contents x.1.peer = contents l.peer ∧
    (∀ i, x.2 = .ok i → ∃ op e, SearchFor env.conn (Api.getArgs dn attrs kwds) op ∧ dir.finds (contents l.peer) op [e] ∧ Shown [e] [i]) ∧
    (kwds = [] → x.2 = .error .noResults → ∃ op, SearchFor env.conn (Api.getArgs dn attrs kwds) op ∧ dir.finds (contents l.peer) op []) ∧
    (kwds = [] → x.2 = .error .multipleResults → ∃ op found, SearchFor env.conn (Api.getArgs dn attrs kwds) op ∧ dir.finds (contents l.peer) op found ∧ found ≠ [] ∧ ∀ p, found ≠ [p]) ∧
    (x.2 ≠ .error .tagError → x.2 ≠ .error .typeError → SessionP.Ready x.1.st) := by
  intro x
  simp only [x, Api.getOne]
  by_cases hu : env.conn.unbound = true
  · simp only [if_pos hu]
    exact ⟨trivial, nofun, fun _ => nofun, fun _ => nofun, fun _ _ => hr⟩
  · simp only [if_neg hu]
    have h := searchAll_step env hs l hr (Api.getArgs dn attrs kwds)
    revert h
    rcases hsa : Api.searchAll codec (fun d => d.1.1) peer env l (Api.getArgs dn attrs kwds) with ⟨l', e | items⟩
    · rintro ⟨h1, _, h3, h4⟩
      exact ⟨h1, nofun, fun hk h => absurd (by simpa using h) (h4 hk).1, fun hk h => absurd (by simpa using h) (h4 hk).2, fun a b => h3 (fun h => a (by simpa using h)) (fun h => b (by simpa using h))⟩
    · rintro ⟨h1, h2, h3, _⟩
      obtain ⟨op, found, k1, k2, k3⟩ := h2 items rfl
      match found, items, k3, k2 with
      | [], [], _, k2 =>
        exact ⟨h1, nofun, fun _ _ => ⟨op, k1, k2⟩, fun _ => nofun, fun _ _ => h3 nofun nofun⟩
      | [e], [i], k3, k2 =>
        refine ⟨h1, fun j hj => ?_, fun _ => nofun, fun _ => nofun, fun _ _ => h3 nofun nofun⟩
        simp only [Search.getOneResult, Except.ok.injEq] at hj
        subst hj
        exact ⟨op, e, k1, k2, k3⟩
      | e :: e' :: found, i :: i' :: items, _, k2 =>
        exact ⟨h1, nofun, fun _ => nofun, fun _ _ => ⟨op, _, k1, k2, nofun, nofun⟩, fun _ _ => h3 nofun nofun⟩
      | [], _ :: _, k3, _ => cases k3
      | _ :: _, [], k3, _ => cases k3
      | [_], _ :: _ :: _, k3, _ => obtain _ | ⟨_, k⟩ := k3; cases k
      | _ :: _ :: _, [_], k3, _ => obtain _ | ⟨_, k⟩ := k3; cases k

theorem modDn_step (hs : Serves dir contents peer) (l : Link Received.Decoded S) (hr : SessionP.Ready l.st) (dn rdn : Str) (clean : Bool) (parent : Option Str) :
    let x := Api.sendModDn codec (fun d => d.1.1) peer env l (ldapModDn env.conn.unbound env.ctrlsOk (fun rq => Api.unitOf (Api.exchange codec (fun d => d.1.1) peer env l (.modDn rq)).2) dn rdn clean parent)
    SessionP.Ready x.1.st ∧ ((x.2 = .ok .done ∧ dir.updated (contents l.peer) (.modDNRequest (utf8Enc dn) (utf8Enc rdn) clean (parent.map utf8Enc)) (contents x.1.peer)) ∨
      ((∃ e, x.2 = .error e) ∧ contents x.1.peer = contents l.peer)) := by
  intro x
  simp only [x, Api.sendModDn, ldapModDn]
  by_cases hu : env.conn.unbound = true
  · simp only [if_pos hu]
    exact ⟨hr, .inr ⟨⟨_, rfl⟩, rfl⟩⟩
  · simp only [if_neg hu]
    cases hc : env.ctrlsOk with
    | error e => exact ⟨hr, .inr ⟨⟨_, rfl⟩, rfl⟩⟩
    | ok _ =>
      simp only []
      obtain ⟨g1, g2⟩ := update_step env hs l hr (.modDn ⟨dn, rdn, clean, parent⟩) trivial _ _ rfl rfl (fun r h => ⟨r, rfl, h, rfl⟩) (fun r h => ⟨r, rfl, h⟩)
      refine ⟨g1, ?_⟩
      rcases g2 with ⟨k1, k2⟩ | ⟨⟨e, k1⟩, k2⟩
      · rw [k1]; exact .inl ⟨rfl, k2⟩
      · rw [k1]; exact .inr ⟨⟨e, rfl⟩, k2⟩

/-- **C90 (one call).** -/
theorem call_step (hs : Serves dir contents peer) (l : Link Received.Decoded S) (hr : SessionP.Ready l.st) (c : Api.Call V) :
    let x := Api.call codec (fun d => d.1.1) peer env l c
    Effect dir env (contents l.peer) c x.2 (contents x.1.peer) ∧ (x.2 ≠ .error .tagError → x.2 ≠ .error .typeError → SessionP.Ready x.1.st) := by
  cases c with
  | add dn attrs =>
    simp only [Api.call, ldapAdd]
    by_cases hu : env.conn.unbound = true
    · simp only [if_pos hu, List.foldl_nil]
      exact ⟨rfl, fun _ _ => hr⟩
    · simp only [if_neg hu]
      cases hc : env.ctrlsOk with
      | error e => exact ⟨rfl, fun _ _ => hr⟩
      | ok _ =>
        simp only []
        cases hv : runValidation env.addValidators (dn, CIDict.update env.lower CIDict.empty attrs) with
        | error e => exact ⟨rfl, fun _ _ => hr⟩
        | ok _ =>
          simp only []
          obtain ⟨g1, g2⟩ := update_step env hs l hr (.add dn attrs) trivial _ _ rfl rfl (fun r h => ⟨r, rfl, h, rfl⟩) (fun r h => ⟨r, rfl, h⟩)
          rcases g2 with ⟨k1, k2⟩ | ⟨⟨e, k1⟩, k2⟩
          · rw [k1]
            exact ⟨⟨k2, _, rfl, fun hn => added_object env.lower attrs hn⟩, fun _ _ => g1⟩
          · rw [k1]
            exact ⟨k2, fun _ _ => g1⟩
  | delete dn =>
    simp only [Api.call]
    by_cases hu : env.conn.unbound = true
    · simp only [if_pos hu]
      exact ⟨rfl, fun _ _ => hr⟩
    · simp only [if_neg hu]
      cases hc : env.ctrlsOk with
      | error e => exact ⟨rfl, fun _ _ => hr⟩
      | ok _ =>
        simp only []
        obtain ⟨g1, g2⟩ := update_step env hs l hr (.delete dn) trivial _ _ rfl rfl (fun r h => ⟨r, rfl, h, rfl⟩) (fun r h => ⟨r, rfl, h⟩)
        rcases g2 with ⟨k1, k2⟩ | ⟨⟨e, k1⟩, k2⟩
        · rw [k1]
          exact ⟨⟨k2, rfl⟩, fun _ _ => g1⟩
        · rw [k1]
          exact ⟨k2, fun _ _ => g1⟩
  | modDn dn rdn clean parent =>
    simp only [Api.call]
    rcases modDn_step env hs l hr dn rdn clean parent with ⟨g1, ⟨k1, k2⟩ | ⟨⟨e, k1⟩, k2⟩⟩
    · rw [k1]; exact ⟨⟨k2, rfl⟩, fun _ _ => g1⟩
    · rw [k1]; exact ⟨k2, fun _ _ => g1⟩
  | move dn newDn clean =>
    simp only [Api.call, ldapMove]
    cases hsp : splitUnescaped false newDn with
    | none => exact ⟨rfl, fun _ _ => hr⟩
    | some q =>
      obtain ⟨rdn, parent⟩ := q
      simp only []
      obtain ⟨s1, s2⟩ := split_spec _ _ _ _ hsp
      rcases modDn_step env hs l hr dn rdn clean (some parent) with ⟨g1, ⟨k1, k2⟩ | ⟨⟨e, k1⟩, k2⟩⟩
      · rw [k1]
        refine ⟨⟨⟨rdn, parent, s1, fun a b hab => ?_, k2⟩, rfl⟩, fun _ _ => g1⟩
        rcases s2 a b hab with ⟨_, h⟩ | h
        · cases h
        · exact h
      · rw [k1]; exact ⟨k2, fun _ _ => g1⟩
  | modify dn mods current =>
    simp only [Api.call, ldapModify]
    by_cases hm : mods.length > 0
    · simp only [if_pos hm]
      by_cases hu : env.conn.unbound = true
      · simp only [if_pos hu]
        exact ⟨rfl, fun _ _ => hr⟩
      · simp only [if_neg hu]
        cases hv : runValidation env.modValidators (dn, mods, current) with
        | error e => exact ⟨rfl, fun _ _ => hr⟩
        | ok _ =>
          simp only []
          cases hb : (buildChanges env.opts mods).2 with
          | error e => exact ⟨rfl, fun _ _ => hr⟩
          | ok cs =>
            have hcs := changes_sent env.opts mods cs hb
            simp only []
            by_cases hl : cs.length > 0
            · simp only [if_pos hl]
              cases hc : env.ctrlsOk with
              | error e => exact ⟨rfl, fun _ _ => hr⟩
              | ok _ =>
                simp only []
                obtain ⟨g1, g2⟩ := update_step env hs l hr (.modify ⟨dn, cs⟩) trivial _ _ rfl rfl (fun r h => ⟨r, rfl, h, rfl⟩) (fun r h => ⟨r, rfl, h⟩)
                rcases g2 with ⟨k1, k2⟩ | ⟨⟨e, k1⟩, k2⟩
                · rw [k1]
                  refine ⟨⟨.inr ⟨?_, ?_⟩, rfl⟩, fun _ _ => g1⟩
                  · rw [← hcs]
                    intro h
                    rw [List.map_eq_nil_iff] at h
                    rw [h] at hl
                    simp at hl
                  · rw [← hcs]
                    have hop : Spec.Wire.Op.modifyRequest (utf8Enc dn) (cs.map (fun c => (Spec.Wire.modNumber c.op, Spec.Wire.ofAttr (c.attr, c.vals)))) =
                        Spec.OverWireS.modifyOp dn (cs.map toBytes) := by
                      simp only [Spec.OverWireS.modifyOp, List.map_map]
                      rfl
                    rw [← hop]
                    exact k2
                · rw [k1]
                  exact ⟨k2, fun _ _ => g1⟩
            · simp only [if_neg hl]
              have h0 : cs = [] := List.length_eq_zero_iff.1 (by omega)
              rw [h0] at hcs
              exact ⟨⟨.inl ⟨hcs.symm, rfl⟩, rfl⟩, fun _ _ => hr⟩
    · simp only [if_neg hm]
      have h0 : mods = [] := List.length_eq_zero_iff.1 (by omega)
      subst h0
      exact ⟨⟨.inl ⟨rfl, rfl⟩, rfl⟩, fun _ _ => hr⟩
  | compare dn attr value =>
    simp only [Api.call]
    by_cases hu : env.conn.unbound = true
    · simp only [if_pos hu]
      exact ⟨rfl, fun _ _ => hr⟩
    · simp only [if_neg hu]
      cases hc : env.ctrlsOk with
      | error e => exact ⟨rfl, fun _ _ => hr⟩
      | ok _ =>
        simp only []
        obtain ⟨g1, g2, g3⟩ := compare_step env hs l hr dn attr value
        rcases g3 with ⟨e, k1⟩ | ⟨b, k1, k2⟩
        · rw [k1]; exact ⟨g2, fun _ _ => g1⟩
        · rw [k1]; exact ⟨⟨g2, b, rfl, k2⟩, fun _ _ => g1⟩
  | search a =>
    simp only [Api.call]
    have h := searchAll_step env hs l hr a
    revert h
    rcases Api.searchAll codec (fun d => d.1.1) peer env l a with ⟨l', e | items⟩
    · rintro ⟨h1, _, h3, _⟩
      exact ⟨h1, fun a b => h3 (fun h => a (by simp only [Except.error.injEq] at h; rw [h])) (fun h => b (by simp only [Except.error.injEq] at h; rw [h]))⟩
    · rintro ⟨h1, h2, h3, _⟩
      obtain ⟨op, found, k1, k2, k3⟩ := h2 items rfl
      exact ⟨⟨h1, op, found, items, k1, k2, k3, rfl⟩, fun _ _ => h3 nofun nofun⟩
  | get_ dn attrs kwds =>
    simp only [Api.call]
    have h := getOne_step env hs l hr dn attrs kwds
    revert h
    rcases Api.getOne codec (fun d => d.1.1) peer env l dn attrs kwds with ⟨l', e | i⟩
    · rintro ⟨h1, _, _, _, h3⟩
      exact ⟨h1, fun a b => h3 (fun h => a (by simp only [Except.error.injEq] at h; rw [h])) (fun h => b (by simp only [Except.error.injEq] at h; rw [h]))⟩
    · rintro ⟨h1, h2, _, _, h3⟩
      obtain ⟨op, e, k1, k2, k3⟩ := h2 i rfl
      exact ⟨⟨h1, op, e, i, k1, k2, k3, rfl⟩, fun _ _ => h3 nofun nofun⟩
  | exists_ dn =>
    simp only [Api.call]
    have h := getOne_step env hs l hr dn (some [str "1.1"]) []
    revert h
    rcases Api.getOne codec (fun d => d.1.1) peer env l dn (some [str "1.1"]) [] with ⟨l', e | i⟩
    · rintro ⟨h1, _, h2, h3, h4⟩
      by_cases hn : e = .noResults
      · subst hn
        obtain ⟨op, k1, k2⟩ := h2 rfl rfl
        exact ⟨⟨h1, op, [], false, k1, k2, rfl, by simp⟩, fun _ _ => h4 nofun nofun⟩
      · by_cases hm : e = .multipleResults
        · subst hm
          obtain ⟨op, found, k1, k2, k3⟩ := h3 rfl rfl
          exact ⟨⟨h1, op, found, true, k1, k2, rfl, by simp [k3]⟩, fun _ _ => h4 nofun nofun⟩
        · cases e <;> first
            | exact absurd rfl hn
            | exact absurd rfl hm
            | exact ⟨h1, fun a _ => absurd rfl a⟩
            | exact ⟨h1, fun _ b => absurd rfl b⟩
            | exact ⟨h1, fun _ _ => h4 (by simp) (by simp)⟩
    · rintro ⟨h1, h2, _, _, h3⟩
      obtain ⟨op, e, k1, k2, k3⟩ := h2 i rfl
      exact ⟨⟨h1, op, [e], true, k1, k2, rfl, by simp⟩, fun _ _ => h3 nofun nofun⟩

theorem respond_enc (op : Spec.Wire.Op) (resp : Spec.Wire.Result → Spec.Wire.Op) (h : respond op = some resp) (mid : Int) (hm : Spec.Wire.Int0Max mid) (code : Int) (hcode : (zBytes code).length ≤ 5) :
    ∃ pieces, Answered mid [resp (said code)] pieces := by
  apply answer_one
  intro o ho
  rw [List.mem_singleton.1 ho]
  match op, h with
  | .addRequest _ _, h => cases h; exact small_enc 0x69 (.addResponse (said code)) code hcode rfl trivial mid hm
  | .delRequest _, h => cases h; exact small_enc 0x6B (.delResponse (said code)) code hcode rfl trivial mid hm
  | .modDNRequest _ _ _ _, h => cases h; exact small_enc 0x6D (.modDNResponse (said code)) code hcode rfl trivial mid hm
  | .modifyRequest _ _, h => cases h; exact small_enc 0x67 (.modifyResponse (said code)) code hcode rfl trivial mid hm

end
end DirP

section
open DirP OverWireP OverWire Spec.OverWireS Spec.DirectoryS WireP

/-- **C90 (one call).** A call on a connection to a server that has these contents, in whatever encodings and pieces it answers: an update that returns has happened, one that raises has not; a comparison returns the
truth; a search returns all that the directory finds, `get` the only entry there is, `exists` whether there is one. Unless the call raised TagError or TypeError, the connection is then ready for the next one. -/
theorem c90_call {V R S D : Type} {dir : Directory D} {contents : S → D} {peer : Peer S} (hs : Serves dir contents peer) (env : Api.Env V R) (l : Link Received.Decoded S) (hr : SessionP.Ready l.st) (c : Api.Call V) :
    let x := Api.call codec (fun d => d.1.1) peer env l c
    Effect dir env (contents l.peer) c x.2 (contents x.1.peer) ∧ (x.2 ≠ .error .tagError → x.2 ≠ .error .typeError → SessionP.Ready x.1.st) :=
  call_step env hs l hr c

theorem DirP.history {V R S D : Type} {dir : Directory D} {contents : S → D} {peer : Peer S} (hs : Serves dir contents peer) (hist : List (Api.Env V R × Api.Call V)) :
    ∀ l : Link Received.Decoded S, SessionP.Ready l.st → let r := Api.run codec (fun d => d.1.1) peer l hist
    (∀ res ∈ r.2.dropLast, res ≠ .error .tagError ∧ res ≠ .error .typeError) → Happens dir (contents l.peer) (hist.zip r.2) (contents r.1.peer) := by
  induction hist with
  | nil => intro l _ r _; exact .none _
  | cons x hist ih =>
    obtain ⟨env, c⟩ := x
    intro l hr r hgood
    obtain ⟨h1, h2⟩ := c90_call hs env l hr c
    cases hist with
    | nil => exact .then h1 (.none _)
    | cons y hist =>
      have hl : r.2.dropLast = (Api.call codec (fun d => d.1.1) peer env l c).2 :: (Api.run codec (fun d => d.1.1) peer (Api.call codec (fun d => d.1.1) peer env l c).1 (y :: hist)).2.dropLast := by
        obtain ⟨env', c'⟩ := y
        rfl
      rw [hl] at hgood
      have hg := hgood _ List.mem_cons_self
      exact .then h1 (ih _ (h2 hg.1 hg.2) (fun res hres => hgood res (List.mem_cons_of_mem _ hres)))

/-- **C90 (any history).** Calls one after the other on a fresh connection, whatever they are and whatever they return: taken together they are a history of the directory. Part of the property: no call but the last
may raise TagError or TypeError (`c90_cut_short_witness`). -/
theorem c90_history_partial {V R S D : Type} {dir : Directory D} {contents : S → D} {peer : Peer S} (hs : Serves dir contents peer) (s0 : S) (hist : List (Api.Env V R × Api.Call V)) :
    let r := Api.run codec (fun d => d.1.1) peer ⟨Session.St.init, s0⟩ hist
    (∀ res ∈ r.2.dropLast, res ≠ .error .tagError ∧ res ≠ .error .typeError) → Happens dir (contents s0) (hist.zip r.2) (contents r.1.peer) :=
  DirP.history hs hist _ SessionP.ready_init

/-- one step of a server that does what can be done -/
theorem DirP.server_step {D : Type} (dir : Directory D) : ∀ (d : D) (bs : Bytes), ∃ x : D × List Bytes,
    (∀ mid op resp ctrls, respond op = some resp → Spec.Wire.Message.Valid ⟨mid, op, ctrls⟩ → Spec.Wire.Message.enc Spec.Wire.x690 ⟨mid, op, ctrls⟩ bs →
      ∃ r : Spec.Wire.Result, Answered mid [resp r] x.2 ∧ ((r.code = 0 ∧ dir.updated d op x.1) ∨ (r.code ≠ 0 ∧ x.1 = d ∧ ∀ d', ¬ dir.updated d op d'))) ∧
    (∀ mid dn attr value ctrls, Spec.Wire.Message.Valid ⟨mid, .compareRequest dn attr value, ctrls⟩ → Spec.Wire.Message.enc Spec.Wire.x690 ⟨mid, .compareRequest dn attr value, ctrls⟩ bs →
      x.1 = d ∧ ∃ r : Spec.Wire.Result, (r.code = 6 ∨ r.code = 5) ∧ Answered mid [.compareResponse r] x.2 ∧ (r.code = 6 → dir.holds d dn attr value) ∧ (r.code = 5 → ¬ dir.holds d dn attr value)) ∧
    (∀ mid op ctrls, IsSearch op → Spec.Wire.Message.Valid ⟨mid, op, ctrls⟩ → Spec.Wire.Message.enc Spec.Wire.x690 ⟨mid, op, ctrls⟩ bs →
      x.1 = d ∧ ∃ (found : List Found) (r : Spec.Wire.Result), r.code ≠ 10 ∧ r.code ≠ 32 ∧ r.referral = none ∧ (∀ e ∈ found, (e.2.map Prod.fst).Nodup) ∧ Answered mid (found.map Spec.DirectoryS.entryOp ++ [.searchResDone r]) x.2 ∧
        ((r.code = 0 ∧ dir.finds d op found) ∨ (r.code ≠ 0 ∧ ∀ found, dir.finds d op found → (∀ e ∈ found, (e.2.map Prod.fst).Nodup) →
          ¬ ∀ e ∈ found, ∃ b, Spec.Wire.Message.enc Spec.Wire.x690 ⟨mid, Spec.DirectoryS.entryOp e, none⟩ b))) := by
  intro d bs
  by_cases hm : ∃ m : Spec.Wire.Message, m.Valid ∧ m.enc Spec.Wire.x690 bs
  · obtain ⟨⟨mid, op, ctrls⟩, hv, he⟩ := hm
    have hsame : ∀ mid' op' ctrls', Spec.Wire.Message.Valid ⟨mid', op', ctrls'⟩ → Spec.Wire.Message.enc Spec.Wire.x690 ⟨mid', op', ctrls'⟩ bs → mid' = mid ∧ op' = op := by
      intro mid' op' ctrls' h3 h4
      have := read_once h3 h4 hv he
      simp only [Spec.Wire.Message.mk.injEq] at this
      exact ⟨this.1, this.2.1⟩
    by_cases hu : ∃ resp, respond op = some resp
    · obtain ⟨resp, hresp⟩ := hu
      have noc : ∀ dn attr value, op ≠ .compareRequest dn attr value := by rintro dn attr value rfl; cases hresp
      have nos : ¬ IsSearch op := by
        intro h
        cases op <;> first | exact h | (simp only [respond, reduceCtorEq] at hresp; done)
      by_cases hd : ∃ d', dir.updated d op d'
      · obtain ⟨d', hd⟩ := hd
        obtain ⟨pieces, hp⟩ := respond_enc op resp hresp mid hv.1 0 (by decide)
        refine ⟨(d', pieces), fun mid' op' resp' ctrls' h h3 h4 => ?_, fun mid' dn attr value ctrls' h3 h4 => absurd (hsame _ _ _ h3 h4).2.symm (noc _ _ _), fun mid' op' ctrls' h h3 h4 => absurd ((hsame _ _ _ h3 h4).2 ▸ h) nos⟩
        obtain ⟨rfl, rfl⟩ := hsame _ _ _ h3 h4
        rw [hresp] at h
        cases h
        exact ⟨said 0, hp, .inl ⟨rfl, hd⟩⟩
      · obtain ⟨pieces, hp⟩ := respond_enc op resp hresp mid hv.1 53 (by decide)
        refine ⟨(d, pieces), fun mid' op' resp' ctrls' h h3 h4 => ?_, fun mid' dn attr value ctrls' h3 h4 => absurd (hsame _ _ _ h3 h4).2.symm (noc _ _ _), fun mid' op' ctrls' h h3 h4 => absurd ((hsame _ _ _ h3 h4).2 ▸ h) nos⟩
        obtain ⟨rfl, rfl⟩ := hsame _ _ _ h3 h4
        rw [hresp] at h
        cases h
        exact ⟨said 53, hp, .inr ⟨by decide, rfl, fun d' h => hd ⟨d', h⟩⟩⟩
    · by_cases hc : ∃ dn attr value, op = .compareRequest dn attr value
      · obtain ⟨dn, attr, value, rfl⟩ := hc
        have hans : ∀ code : Int, (zBytes code).length ≤ 5 → ∃ pieces, Answered mid [.compareResponse (said code)] pieces := fun code hcode =>
          answer_one mid _ (fun o ho => by
            rw [List.mem_singleton.1 ho]
            exact small_enc 0x6F (.compareResponse (said code)) code hcode rfl trivial mid hv.1)
        by_cases ht : dir.holds d dn attr value
        · obtain ⟨pieces, hp⟩ := hans 6 (by decide)
          refine ⟨(d, pieces), fun mid' op' resp' ctrls' h h3 h4 => absurd ⟨resp', (hsame _ _ _ h3 h4).2 ▸ h⟩ hu, fun mid' dn' attr' value' ctrls' h3 h4 => ?_, fun mid' op' ctrls' h h3 h4 => absurd h (by rw [(hsame _ _ _ h3 h4).2]; exact id)⟩
          obtain ⟨rfl, h5⟩ := hsame _ _ _ h3 h4
          cases h5
          exact ⟨rfl, said 6, .inl rfl, hp, fun _ => ht, fun h => absurd h (by decide)⟩
        · obtain ⟨pieces, hp⟩ := hans 5 (by decide)
          refine ⟨(d, pieces), fun mid' op' resp' ctrls' h h3 h4 => absurd ⟨resp', (hsame _ _ _ h3 h4).2 ▸ h⟩ hu, fun mid' dn' attr' value' ctrls' h3 h4 => ?_, fun mid' op' ctrls' h h3 h4 => absurd h (by rw [(hsame _ _ _ h3 h4).2]; exact id)⟩
          obtain ⟨rfl, h5⟩ := hsame _ _ _ h3 h4
          cases h5
          exact ⟨rfl, said 5, .inr rfl, hp, fun h => absurd h (by decide), fun _ => ht⟩
      · by_cases hse : IsSearch op
        · have hdone : ∀ code : Int, (zBytes code).length ≤ 5 → ∃ b, Spec.Wire.Message.Valid ⟨mid, .searchResDone (said code), none⟩ ∧ Spec.Wire.Message.enc Spec.Wire.x690 ⟨mid, .searchResDone (said code), none⟩ b := fun code hcode =>
            small_enc 0x65 (.searchResDone (said code)) code hcode rfl trivial mid hv.1
          by_cases hf : ∃ found, dir.finds d op found ∧ (∀ e ∈ found, (e.2.map Prod.fst).Nodup) ∧ ∀ e ∈ found, ∃ b, Spec.Wire.Message.enc Spec.Wire.x690 ⟨mid, Spec.DirectoryS.entryOp e, none⟩ b
          · obtain ⟨found, f1, f2, f3⟩ := hf
            obtain ⟨pieces, hp⟩ := answer_one mid (found.map Spec.DirectoryS.entryOp ++ [.searchResDone (said 0)]) (fun o ho => by
              rcases List.mem_append.1 ho with ho | ho
              · obtain ⟨e, hem, rfl⟩ := List.mem_map.1 ho
                obtain ⟨b, hb⟩ := f3 e hem
                exact ⟨b, ⟨hv.1, trivial⟩, hb⟩
              · rw [List.mem_singleton.1 ho]
                exact hdone 0 (by decide))
            refine ⟨(d, pieces), fun mid' op' resp' ctrls' h h3 h4 => absurd ⟨resp', (hsame _ _ _ h3 h4).2 ▸ h⟩ hu, fun mid' dn' attr' value' ctrls' h3 h4 => absurd ⟨dn', attr', value', (hsame _ _ _ h3 h4).2.symm⟩ hc, fun mid' op' ctrls' h h3 h4 => ?_⟩
            obtain ⟨rfl, rfl⟩ := hsame _ _ _ h3 h4
            exact ⟨rfl, found, said 0, by decide, by decide, rfl, f2, hp, .inl ⟨rfl, f1⟩⟩
          · obtain ⟨pieces, hp⟩ := answer_one mid [.searchResDone (said 53)] (fun o ho => by
              rw [List.mem_singleton.1 ho]
              exact hdone 53 (by decide))
            refine ⟨(d, pieces), fun mid' op' resp' ctrls' h h3 h4 => absurd ⟨resp', (hsame _ _ _ h3 h4).2 ▸ h⟩ hu, fun mid' dn' attr' value' ctrls' h3 h4 => absurd ⟨dn', attr', value', (hsame _ _ _ h3 h4).2.symm⟩ hc, fun mid' op' ctrls' h h3 h4 => ?_⟩
            obtain ⟨rfl, rfl⟩ := hsame _ _ _ h3 h4
            exact ⟨rfl, [], said 53, by decide, by decide, rfl, nofun, hp, .inr ⟨by decide, fun found h1 h2 h3 => hf ⟨found, h1, h2, h3⟩⟩⟩
        · exact ⟨(d, []), fun mid' op' resp' ctrls' h h3 h4 => absurd ⟨resp', (hsame _ _ _ h3 h4).2 ▸ h⟩ hu, fun mid' dn' attr' value' ctrls' h3 h4 => absurd ⟨dn', attr', value', (hsame _ _ _ h3 h4).2.symm⟩ hc,
            fun mid' op' ctrls' h h3 h4 => absurd ((hsame _ _ _ h3 h4).2 ▸ h) hse⟩
  · exact ⟨(d, []), fun _ _ _ _ _ h3 h4 => absurd ⟨_, h3, h4⟩ hm, fun _ _ _ _ _ h3 h4 => absurd ⟨_, h3, h4⟩ hm, fun _ _ _ _ h3 h4 => absurd ⟨_, h3, h4⟩ hm⟩

/-- **C90 (there are such servers).** Whatever the operations mean, there is a server that behaves like this, starting with any contents, makes every update that is possible, decides every comparison, and finds
what there is to be found whenever that can be sent at all. -/
theorem c90_server_exists {D : Type} (dir : Directory D) : ∃ peer : Peer D, Serves dir (fun d => d) peer ∧
    (∀ d bs mid op resp ctrls d', respond op = some resp → Spec.Wire.Message.Valid ⟨mid, op, ctrls⟩ → Spec.Wire.Message.enc Spec.Wire.x690 ⟨mid, op, ctrls⟩ bs → dir.updated d op d' →
      dir.updated d op (peer d bs).1 ∧ ∃ r, r.code = 0 ∧ Answered mid [resp r] (peer d bs).2) ∧
    (∀ d bs mid dn attr value ctrls, Spec.Wire.Message.Valid ⟨mid, .compareRequest dn attr value, ctrls⟩ → Spec.Wire.Message.enc Spec.Wire.x690 ⟨mid, .compareRequest dn attr value, ctrls⟩ bs →
      ∃ r, (r.code = 6 ∨ r.code = 5) ∧ Answered mid [.compareResponse r] (peer d bs).2) ∧
    (∀ d bs mid op ctrls found, IsSearch op → Spec.Wire.Message.Valid ⟨mid, op, ctrls⟩ → Spec.Wire.Message.enc Spec.Wire.x690 ⟨mid, op, ctrls⟩ bs → dir.finds d op found → (∀ e ∈ found, (e.2.map Prod.fst).Nodup) →
      (∀ e ∈ found, ∃ b, Spec.Wire.Message.enc Spec.Wire.x690 ⟨mid, Spec.DirectoryS.entryOp e, none⟩ b) →
      ∃ found' r, r.code = 0 ∧ dir.finds d op found' ∧ Answered mid (found'.map Spec.DirectoryS.entryOp ++ [.searchResDone r]) (peer d bs).2) := by
  have key := DirP.server_step dir
  refine ⟨fun d bs => Classical.choose (key d bs), ⟨?_, ?_, ?_⟩, ?_, ?_, ?_⟩
  · intro d bs mid op resp ctrls h hv he
    obtain ⟨r, h1, h2⟩ := (Classical.choose_spec (key d bs)).1 mid op resp ctrls h hv he
    exact ⟨r, h1, h2.imp id (fun h => ⟨h.1, h.2.1⟩)⟩
  · intro d bs mid dn attr value ctrls hv he
    obtain ⟨h1, r, _, h2⟩ := (Classical.choose_spec (key d bs)).2.1 mid dn attr value ctrls hv he
    exact ⟨h1, r, h2⟩
  · intro d bs mid op ctrls h hv he
    obtain ⟨h1, found, r, h2, h3, h4, h5, h6, h7⟩ := (Classical.choose_spec (key d bs)).2.2 mid op ctrls h hv he
    refine ⟨h1, found, r, h2, h4, h5, h6, fun h0 => ?_, fun h => absurd h h3⟩
    rcases h7 with h7 | h7
    · exact h7.2
    · exact absurd h0 h7.1
  · intro d bs mid op resp ctrls d' h hv he hd
    obtain ⟨r, h1, h2⟩ := (Classical.choose_spec (key d bs)).1 mid op resp ctrls h hv he
    rcases h2 with h2 | h2
    · exact ⟨h2.2, r, h2.1, h1⟩
    · exact absurd hd (h2.2.2 d')
  · intro d bs mid dn attr value ctrls hv he
    obtain ⟨_, r, h1, h2, _⟩ := (Classical.choose_spec (key d bs)).2.1 mid dn attr value ctrls hv he
    exact ⟨r, h1, h2⟩
  · intro d bs mid op ctrls found h hv he hf hn hb
    obtain ⟨_, found', r, _, _, _, _, h6, h7⟩ := (Classical.choose_spec (key d bs)).2.2 mid op ctrls h hv he
    rcases h7 with h7 | h7
    · exact ⟨found', r, h7.1, h7.2, h6⟩
    · exact absurd hb (h7.2 found hf hn)

/-- a server that answers one particular request in a way of its own -/
theorem DirP.override {S D : Type} {dir : Directory D} {contents : S → D} {peer : Peer S} (hs : Serves dir contents peer) (m : Spec.Wire.Message) (b : Bytes) (hv : m.Valid) (he : m.enc Spec.Wire.x690 b) (out : S → S × List Bytes)
    (hu : ∀ s resp, respond m.op = some resp → ∃ r : Spec.Wire.Result, Answered m.id [resp r] (out s).2 ∧
      ((r.code = 0 ∧ dir.updated (contents s) m.op (contents (out s).1)) ∨ (r.code ≠ 0 ∧ contents (out s).1 = contents s)))
    (hc : ∀ s dn attr value, m.op = .compareRequest dn attr value → contents (out s).1 = contents s ∧
      ∃ r : Spec.Wire.Result, Answered m.id [.compareResponse r] (out s).2 ∧ (r.code = 6 → dir.holds (contents s) dn attr value) ∧ (r.code = 5 → ¬ dir.holds (contents s) dn attr value))
    (hf : ∀ s, IsSearch m.op → contents (out s).1 = contents s ∧
      ∃ (found : List Found) (r : Spec.Wire.Result), r.code ≠ 10 ∧ r.referral = none ∧ (∀ e ∈ found, (e.2.map Prod.fst).Nodup) ∧ Answered m.id (found.map Spec.DirectoryS.entryOp ++ [.searchResDone r]) (out s).2 ∧
        (r.code = 0 → dir.finds (contents s) m.op found) ∧ (r.code = 32 → found = [] ∧ dir.finds (contents s) m.op [])) :
    Serves dir contents (fun s bs => if bs = b then out s else peer s bs) := by
  have same : ∀ mid op ctrls, Spec.Wire.Message.Valid ⟨mid, op, ctrls⟩ → Spec.Wire.Message.enc Spec.Wire.x690 ⟨mid, op, ctrls⟩ b → m = ⟨mid, op, ctrls⟩ := fun mid op ctrls h3 h4 => read_once hv he h3 h4
  refine ⟨?_, ?_, ?_⟩
  · intro s bs mid op resp ctrls h h3 h4
    by_cases hb : bs = b
    · subst hb
      have := same _ _ _ h3 h4
      subst this
      simpa using hu s resp h
    · simp only [if_neg hb]
      exact hs.update s bs mid op resp ctrls h h3 h4
  · intro s bs mid dn attr value ctrls h3 h4
    by_cases hb : bs = b
    · subst hb
      have := same _ _ _ h3 h4
      subst this
      simpa using hc s _ _ _ rfl
    · simp only [if_neg hb]
      exact hs.compare s bs mid dn attr value ctrls h3 h4
  · intro s bs mid op ctrls h h3 h4
    by_cases hb : bs = b
    · subst hb
      have := same _ _ _ h3 h4
      subst this
      simpa using hf s h
    · simp only [if_neg hb]
      exact hs.search s bs mid op ctrls h h3 h4

namespace DirP

/-- a directory with two entries that cannot be changed; a value of the second happens to look like a response -/
def fixedDir : Directory Unit := ⟨fun _ _ _ => False, fun _ _ _ _ => False, fun _ _ found => found = [(str "a=1", []), (str "a=2", [(str "a", [[48, 12, 2, 1, 2, 107, 7, 10, 1, 0, 4, 0, 4, 0]])])]⟩

def searchBytes : Bytes := [48, 41, 2, 1, 1, 99, 36, 4, 1, 111, 10, 1, 2, 10, 1, 0, 2, 1, 0, 2, 1, 0, 1, 1, 0, 135, 11, 111, 98, 106, 101, 99, 116, 67, 108, 97, 115, 115, 48, 3, 4, 1, 42]
def deleteBytes : Bytes := [48, 6, 2, 1, 2, 74, 1, 111]
def searchMsg : Spec.Wire.Message := ⟨1, .searchRequest [111] 2 0 0 0 false (.present [111, 98, 106, 101, 99, 116, 67, 108, 97, 115, 115]) [[42]], none⟩
def deleteMsg : Spec.Wire.Message := ⟨2, .delRequest [111], none⟩

/-- the first entry and the beginning of the second; its only value, and the result -/
def cutPieces : List Bytes := [[48, 12, 2, 1, 1, 100, 7, 4, 3, 97, 61, 49, 48, 0, 48, 35, 2, 1, 1, 100, 30, 4, 3, 97, 61, 50, 48, 23, 48, 21, 4, 1, 97, 49, 16, 4, 14],
  [48, 12, 2, 1, 2, 107, 7, 10, 1, 0, 4, 0, 4, 0, 48, 12, 2, 1, 1, 101, 7, 10, 1, 0, 4, 0, 4, 0]]

def refusal : List Bytes := [[48, 12, 2, 1, 2, 107, 7, 10, 1, 50, 4, 0, 4, 0]]

/-- it answers the search in two pieces and refuses to delete -/
noncomputable def cutPeer : Peer Unit := fun s bs => if bs = searchBytes then (s, cutPieces) else (fun s bs => if bs = deleteBytes then (s, refusal) else Classical.choose (c90_server_exists fixedDir) s bs) s bs

theorem cut_serves : Serves fixedDir (fun d => d) cutPeer := by
  have h0 := (Classical.choose_spec (c90_server_exists fixedDir)).1
  have hd := WireR.has_enc deleteMsg deleteBytes (by decide +kernel)
  have hs := WireR.has_enc searchMsg searchBytes (by decide +kernel)
  refine DirP.override (DirP.override h0 deleteMsg deleteBytes hd.1 hd.2 (fun s => (s, refusal)) ?_ nofun (fun _ h => h.elim)) searchMsg searchBytes hs.1 hs.2 (fun s => (s, cutPieces)) nofun nofun ?_
  · intro s resp hresp
    cases hresp
    have hr := WireR.has_enc ⟨2, .delResponse (said 50), none⟩ [48, 12, 2, 1, 2, 107, 7, 10, 1, 50, 4, 0, 4, 0] (by decide +kernel)
    exact ⟨said 50, ⟨_, .cons hr .nil, by dsimp only; decide, by dsimp only; decide⟩, .inr ⟨by decide, rfl⟩⟩
  · intro s _
    have h1 := WireR.has_enc ⟨1, Spec.DirectoryS.entryOp (str "a=1", []), none⟩ [48, 12, 2, 1, 1, 100, 7, 4, 3, 97, 61, 49, 48, 0] (by decide +kernel)
    have h2 := WireR.has_enc ⟨1, Spec.DirectoryS.entryOp (str "a=2", [(str "a", [[48, 12, 2, 1, 2, 107, 7, 10, 1, 0, 4, 0, 4, 0]])]), none⟩
      [48, 35, 2, 1, 1, 100, 30, 4, 3, 97, 61, 50, 48, 23, 48, 21, 4, 1, 97, 49, 16, 4, 14, 48, 12, 2, 1, 2, 107, 7, 10, 1, 0, 4, 0, 4, 0] (by decide +kernel)
    have h3 := WireR.has_enc ⟨1, .searchResDone (said 0), none⟩ [48, 12, 2, 1, 1, 101, 7, 10, 1, 0, 4, 0, 4, 0] (by decide +kernel)
    exact ⟨rfl, [(str "a=1", []), (str "a=2", [(str "a", [[48, 12, 2, 1, 2, 107, 7, 10, 1, 0, 4, 0, 4, 0]])])], said 0, by decide, rfl, by decide,
      ⟨_, .cons h1 (.cons h2 (.cons h3 .nil)), by dsimp only; decide, by dsimp only; decide⟩, fun _ => rfl, fun h => absurd h (by decide)⟩

def sampleEnv : Api.Env Unit Unit :=
  ⟨lc, [], [], ⟨false, true⟩, .ok none, ⟨false, 0, 0, true, true, .unified, str "(objectClass=*)", false, [], [], {}⟩, ⟨{}, true, true, [], [], fun _ => ([], none)⟩, true, [], []⟩

/-- a search whose results are to be tagged with a tag that is in use, then a deletion -/
def cutHist : List (Api.Env Unit Unit × Api.Call Unit) := [(sampleEnv, .search { base := str "o", kwds := [(str "tag", .plain ())] }), (sampleEnv, .delete (str "o"))]

noncomputable def cutRun := Api.run codec (fun d => d.1.1) cutPeer ⟨Session.St.init, ()⟩ cutHist

def isCut : List (Except Err (Api.Ret Unit)) → Bool
  | [.error .tagError, .ok .done] => true
  | _ => false

set_option maxRecDepth 100000 in
theorem cut_result : isCut cutRun.2 = true := by decide +kernel

theorem isCut_eq (l : List (Except Err (Api.Ret Unit))) (h : isCut l = true) : l = [.error .tagError, .ok .done] := by
  unfold isCut at h
  split at h
  · rfl
  · cases h

end DirP

/-- **C90 (a search cut short).** The octets of an answer that the iteration of a search result did not get to are lost, except those that have not arrived yet: they are taken for what comes next. The server here
refuses the deletion, but `delete` returns, because the value of an attribute of an entry, left over from the search before, is taken for the response. -/
theorem c90_cut_short_witness : ∃ (dir : Directory Unit) (peer : Peer Unit) (hist : List (Api.Env Unit Unit × Api.Call Unit)), Serves dir (fun d => d) peer ∧
    let r := Api.run codec (fun d => d.1.1) peer ⟨Session.St.init, ()⟩ hist
    r.2 = [.error .tagError, .ok .done] ∧ ¬ Happens dir () (hist.zip r.2) r.1.peer := by
  refine ⟨fixedDir, cutPeer, cutHist, cut_serves, isCut_eq _ cut_result, ?_⟩
  rw [show (Api.run codec (fun d => d.1.1) cutPeer ⟨Session.St.init, ()⟩ cutHist).2 = [.error .tagError, .ok .done] from isCut_eq _ cut_result]
  intro h
  cases h with
  | «then» _ h2 =>
    cases h2 with
    | «then» h3 _ => exact h3.1

/-- **C90 (read back what was written).** On any server for which a new entry has the attributes it was added with: if `add` and then `get` return, the object has the DN, the attributes and the octets of the values
that were given to `add`. -/
theorem c90_read_back {V R S D : Type} {dir : Directory D} {contents : S → D} {peer : Peer S} (hs : Serves dir contents peer)
    (hdir : ∀ (d d' : D) (dn : Str) (attrs : List (Str × List AVal)), dir.updated d (.addRequest (utf8Enc dn) (attrs.map Spec.Wire.ofAttr)) d' →
      ∀ deref size time f found, dir.finds d' (.searchRequest (utf8Enc dn) 0 deref size time false f [utf8Enc (str "*")]) found →
        found = [] ∨ found = [(dn, attrs.map (fun p => (p.1, p.2.map (·.bytes))))])
    (s0 : S) (env env' : Api.Env V R) (dn : Str) (attrs : List (Str × List AVal)) (o : Api.Ret R) (items : List (Search.Item Received.Entry R))
    (hres : (Api.run codec (fun d => d.1.1) peer ⟨Session.St.init, s0⟩ [(env, .add dn attrs), (env', .get_ dn none [])]).2 = [.ok o, .ok (.found items)]) :
    ∃ got : PDict Str (List AVal), items = [.entry (dn, got) []] ∧ Pairwise2 (fun (p q : Str × List AVal) => q.1 = p.1 ∧ q.2.map (·.bytes) = p.2.map (·.bytes)) attrs got := by
  have h := c90_history_partial hs s0 [(env, .add dn attrs), (env', .get_ dn none [])]
  simp only [hres, List.dropLast_cons₂, List.dropLast_singleton, List.mem_singleton, forall_eq, ne_eq, reduceCtorEq, not_false_eq_true, and_self, forall_const, List.zip_cons_cons, List.zip_nil_right] at h
  cases h with
  | «then» h1 h2 =>
    cases h2 with
    | «then» h3 _ =>
      obtain ⟨_, op, e, i, hop, hfind, hshow, hret⟩ := h3
      cases hret
      obtain ⟨n, f, hn, _, rfl⟩ := hop
      cases hn
      rcases hdir _ _ dn attrs h1.1 _ _ _ _ _ hfind with h0 | h0
      · cases h0
      · cases h0
        obtain _ | ⟨⟨got, rfl, hg⟩, _⟩ := hshow
        refine ⟨got, rfl, ?_⟩
        have vals : ∀ (l : List AVal) (l' : List AVal), Pairwise2 Spec.Wire.Shows (l.map (·.bytes)) l' → l'.map (·.bytes) = l.map (·.bytes) := by
          intro l
          induction l with
          | nil => intro l' h; cases h; rfl
          | cons v l ih =>
            intro l' h
            cases h with
            | @cons _ w _ l' h1 h2 =>
              rw [List.map_cons, List.map_cons, ih l' h2]
              congr 1
              cases w with
              | text t => exact h1.symm
              | raw b => exact h1.1
        have all : ∀ (attrs got : List (Str × List AVal)), Pairwise2 (fun (p : Str × List Bytes) (q : Str × List AVal) => q.1 = p.1 ∧ Pairwise2 Spec.Wire.Shows p.2 q.2) (attrs.map (fun p => (p.1, p.2.map (·.bytes)))) got →
            Pairwise2 (fun (p q : Str × List AVal) => q.1 = p.1 ∧ q.2.map (·.bytes) = p.2.map (·.bytes)) attrs got := by
          intro attrs
          induction attrs with
          | nil => intro got hg; cases hg; exact .nil
          | cons p attrs ih =>
            intro got hg
            cases hg with
            | @cons _ q _ got' h1 h2 => exact .cons ⟨h1.1, vals _ _ h1.2⟩ (ih got' h2)
        exact all attrs got hg

/-! A run on octets: a comparison, a refused deletion, a search for one entry, `exists` for another. -/
def DirP.script : Peer (List Bytes) := fun s bs =>
  (s ++ [bs], match s.length with
    | 0 => [[48, 12, 2, 1, 1], [111, 7, 10, 1, 6, 4, 0, 4, 0]]
    | 1 => [[48, 12, 2, 1, 2, 107, 7, 10, 1, 50, 4, 0, 4, 0]]
    | 2 => [[48, 27, 2, 1, 3, 100, 22, 4, 4, 99], [110, 61, 120, 48, 14, 48, 12, 4, 2, 99, 110, 49, 6, 4, 1, 120, 4, 1, 255, 48, 12, 2, 1, 3], [101, 7, 10, 1, 0, 4, 0, 4, 0]]
    | 3 => [[48, 12, 2, 1, 4, 101, 7, 10, 1, 32, 4, 0, 4, 0]]
    | _ => [[48, 12, 2, 1, 5, 105, 7, 10, 1, 0, 4, 0, 4, 0]])

def DirP.scriptRun := Api.run codec (fun d => d.1.1) DirP.script ⟨Session.St.init, []⟩ [(sampleEnv, .compare (str "o") (str "a") (str "b")), (sampleEnv, .delete (str "o")), (sampleEnv, .get_ (str "cn=x") none []),
  (sampleEnv, .exists_ (str "cn=y")), (sampleEnv, .add (str "cn=z") [(str "cn", [.text (str "z")])]), (sampleEnv, .move (str "cn=z") (str "nothing") true)]

def DirP.isScript : List (Except Err (Api.Ret Unit)) → Bool
  | [.ok (.truth true), .error .ldapError, .ok (.found [.entry (dn, as) []]), .ok (.truth false), .ok (.object d o), .error .valueError] =>
    decide (dn = str "cn=x") && decide (as = [(str "cn", [.text (str "x"), .raw [255]])]) && decide (d = str "cn=z") && decide (AttrsDict.getAttr lc o (str "CN") = [.text (str "z")])
  | _ => false

set_option maxRecDepth 100000 in
example : DirP.isScript DirP.scriptRun.2 = true ∧ DirP.scriptRun.1.peer.length = 5 ∧ DirP.scriptRun.1.peer[1]? = some [48, 6, 2, 1, 2, 74, 1, 111] := by decide +kernel

/-! The hypotheses of C90 can be met: the same server, a search to its end, and a refused deletion. -/
namespace DirP

def wholeHist : List (Api.Env Unit Unit × Api.Call Unit) := [(sampleEnv, .search { base := str "o" }), (sampleEnv, .delete (str "o"))]

noncomputable def wholeRun := Api.run codec (fun d => d.1.1) cutPeer ⟨Session.St.init, ()⟩ wholeHist

def isWhole : List (Except Err (Api.Ret Unit)) → Bool
  | [.ok (.found [.entry (_, _) [], .entry (dn, as) []]), .error .ldapError] => decide (dn = str "a=2") && decide (as.length = 1)
  | _ => false

set_option maxRecDepth 100000 in
theorem whole_result : isWhole wholeRun.2 = true := by decide +kernel

theorem isWhole_good (l : List (Except Err (Api.Ret Unit))) (h : isWhole l = true) : ∀ res ∈ l.dropLast, res ≠ .error .tagError ∧ res ≠ .error .typeError := by
  unfold isWhole at h
  split at h
  · intro res hres
    simp only [List.dropLast_cons₂, List.dropLast_singleton, List.mem_singleton] at hres
    subst hres
    exact ⟨nofun, nofun⟩
  · cases h

example : Serves fixedDir (fun d => d) cutPeer ∧ Happens fixedDir () (wholeHist.zip wholeRun.2) wholeRun.1.peer :=
  ⟨cut_serves, c90_history_partial cut_serves () wholeHist (isWhole_good _ whole_result)⟩

/-! A directory that holds one entry at most, and a server that has it; `add` and `get` both return. -/

def oneDir : Directory (Option Found) where
  updated _ op d' := ∃ (dn : Str) (attrs : List (Str × List AVal)), op = .addRequest (utf8Enc dn) (attrs.map Spec.Wire.ofAttr) ∧ d' = some (dn, attrs.map (fun p => (p.1, p.2.map (·.bytes))))
  holds _ _ _ _ := False
  finds d _ found := found = d.toList

theorem one_adds (d d' : Option Found) (dn : Str) (attrs : List (Str × List AVal)) (h : oneDir.updated d (.addRequest (utf8Enc dn) (attrs.map Spec.Wire.ofAttr)) d') (op : Spec.Wire.Op) (found : List Found)
    (hf : oneDir.finds d' op found) : found = [] ∨ found = [(dn, attrs.map (fun p => (p.1, p.2.map (·.bytes))))] := by
  obtain ⟨dn', attrs', h1, rfl⟩ := h
  simp only [Spec.Wire.Op.addRequest.injEq] at h1
  obtain ⟨h1, h2⟩ := h1
  right
  have key : ∀ l l' : List (Str × List AVal), l.map Spec.Wire.ofAttr = l'.map Spec.Wire.ofAttr → l'.map (fun p => (p.1, p.2.map (·.bytes))) = l.map (fun p => (p.1, p.2.map (·.bytes))) := by
    intro l
    induction l with
    | nil => intro l' h; cases l' with
      | nil => rfl
      | cons => simp at h
    | cons p l ih =>
      intro l' h
      cases l' with
      | nil => simp at h
      | cons q l' =>
        simp only [List.map_cons, List.cons.injEq, Spec.Wire.ofAttr, Spec.Wire.Attr.mk.injEq] at h ⊢
        exact ⟨by rw [utf8_injective _ _ h.1.1, h.1.2], ih l' h.2⟩
  rw [show found = _ from hf, ← utf8_injective _ _ h1, key _ _ h2]
  rfl

def oneEntry : Found := (str "cn=z", [(str "cn", [[122], [255]])])
def addBytes : Bytes := [48, 27, 2, 1, 1, 104, 22, 4, 4, 99, 110, 61, 122, 48, 14, 48, 12, 4, 2, 99, 110, 49, 6, 4, 1, 122, 4, 1, 255]
def addMsg : Spec.Wire.Message := ⟨1, .addRequest [99, 110, 61, 122] [⟨[99, 110], [[122], [255]]⟩], none⟩
def getBytes : Bytes := [48, 44, 2, 1, 2, 99, 39, 4, 4, 99, 110, 61, 122, 10, 1, 0, 10, 1, 0, 2, 1, 2, 2, 1, 0, 1, 1, 0, 135, 11, 111, 98, 106, 101, 99, 116, 67, 108, 97, 115, 115, 48, 3, 4, 1, 42]
def getMsg : Spec.Wire.Message := ⟨2, .searchRequest [99, 110, 61, 122] 0 0 2 0 false (.present [111, 98, 106, 101, 99, 116, 67, 108, 97, 115, 115]) [[42]], none⟩
def addedPieces : List Bytes := [[48], [12, 2, 1, 1, 105, 7, 10, 1, 0, 4, 0, 4, 0]]
def gotPieces : List Bytes := [[48, 27, 2, 1, 2, 100, 22, 4, 4, 99, 110, 61, 122, 48, 14, 48, 12, 4, 2, 99, 110, 49, 6, 4, 1, 122, 4, 1], [255, 48, 12, 2, 1, 2, 101, 7, 10, 1, 0, 4, 0, 4, 0]]
def nonePieces : List Bytes := [[48, 12, 2, 1, 2, 101, 7, 10, 1, 53, 4, 0, 4, 0]]

noncomputable def onePeer : Peer (Option Found) := fun s bs => if bs = addBytes then (some oneEntry, addedPieces) else
  (fun s bs => if bs = getBytes then (if s = some oneEntry then (s, gotPieces) else (s, nonePieces)) else Classical.choose (c90_server_exists oneDir) s bs) s bs

theorem one_serves : Serves oneDir (fun d => d) onePeer := by
  have h0 := (Classical.choose_spec (c90_server_exists oneDir)).1
  have ha := WireR.has_enc addMsg addBytes (by decide +kernel)
  have hg := WireR.has_enc getMsg getBytes (by decide +kernel)
  refine DirP.override (DirP.override h0 getMsg getBytes hg.1 hg.2 (fun s => if s = some oneEntry then (s, gotPieces) else (s, nonePieces)) nofun nofun ?_) addMsg addBytes ha.1 ha.2 (fun _ => (some oneEntry, addedPieces)) ?_ nofun
    (fun _ h => h.elim)
  · intro s _
    by_cases hs : s = some oneEntry
    · subst hs
      have h1 := WireR.has_enc ⟨2, Spec.DirectoryS.entryOp oneEntry, none⟩ [48, 27, 2, 1, 2, 100, 22, 4, 4, 99, 110, 61, 122, 48, 14, 48, 12, 4, 2, 99, 110, 49, 6, 4, 1, 122, 4, 1, 255] (by decide +kernel)
      have h2 := WireR.has_enc ⟨2, .searchResDone (said 0), none⟩ [48, 12, 2, 1, 2, 101, 7, 10, 1, 0, 4, 0, 4, 0] (by decide +kernel)
      rw [if_pos rfl]
      exact ⟨rfl, [oneEntry], said 0, by decide, rfl, by decide, ⟨_, .cons h1 (.cons h2 .nil), by dsimp only; decide, by dsimp only; decide⟩, fun _ => rfl, fun h => absurd h (by decide)⟩
    · rw [if_neg hs]
      have h2 := WireR.has_enc ⟨2, .searchResDone (said 53), none⟩ [48, 12, 2, 1, 2, 101, 7, 10, 1, 53, 4, 0, 4, 0] (by decide +kernel)
      exact ⟨rfl, [], said 53, by decide, rfl, nofun, ⟨_, .cons h2 .nil, by dsimp only; decide, by dsimp only; decide⟩, fun h => absurd h (by decide), fun h => absurd h (by decide)⟩
  · intro s resp hresp
    cases hresp
    have hr := WireR.has_enc ⟨1, .addResponse (said 0), none⟩ [48, 12, 2, 1, 1, 105, 7, 10, 1, 0, 4, 0, 4, 0] (by decide +kernel)
    refine ⟨said 0, ⟨_, .cons hr .nil, by dsimp only; decide, by dsimp only; decide⟩, .inl ⟨rfl, ?_⟩⟩
    exact ⟨str "cn=z", [(str "cn", [.text (str "z"), .raw [255]])], rfl, rfl⟩

def oneHist : List (Api.Env Unit Unit × Api.Call Unit) := [(sampleEnv, .add (str "cn=z") [(str "cn", [.text (str "z"), .raw [255]])]), (sampleEnv, .get_ (str "cn=z") none [])]

noncomputable def oneRun := Api.run codec (fun d => d.1.1) onePeer ⟨Session.St.init, none⟩ oneHist

def isOne : List (Except Err (Api.Ret Unit)) → Bool
  | [.ok _, .ok (.found _)] => true
  | _ => false

set_option maxRecDepth 100000 in
theorem one_result : isOne oneRun.2 = true := by decide +kernel

theorem isOne_eq (l : List (Except Err (Api.Ret Unit))) (h : isOne l = true) : ∃ o items, l = [.ok o, .ok (.found items)] := by
  unfold isOne at h
  split at h
  · exact ⟨_, _, rfl⟩
  · cases h

example : ∃ o items got, oneRun.2 = [.ok o, .ok (.found items)] ∧ items = [.entry (str "cn=z", got) []] ∧
    Pairwise2 (fun (p q : Str × List AVal) => q.1 = p.1 ∧ q.2.map (·.bytes) = p.2.map (·.bytes)) [(str "cn", [.text (str "z"), .raw [255]])] got := by
  obtain ⟨o, items, h⟩ := isOne_eq _ one_result
  obtain ⟨got, h1, h2⟩ := c90_read_back one_serves (fun d d' dn attrs h _ _ _ _ _ hf => one_adds d d' dn attrs h _ _ hf) none sampleEnv sampleEnv (str "cn=z") [(str "cn", [.text (str "z"), .raw [255]])] o items h
  exact ⟨o, items, got, h, h1, h2⟩

end DirP

end
end Laurelin.Props
