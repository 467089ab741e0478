import Verif.Props.Wire
import Verif.Props.Search
import Verif.Props.SearchRequest
import Verif.Props.Controls
import Verif.Spec.SearchResults
/-!
# C80 a whole search; C81 no two messages share an encoding, and what a server reads is what the caller asked for
-/
namespace Laurelin.Props
open Laurelin Codec Asn1 Rfc4511 Wire WireP
namespace WireR

theorem map_inj {A B : Type} {f : A → B} (hf : ∀ a b, f a = f b → a = b) : ∀ l l' : List A, l.map f = l'.map f → l = l'
  | [], [], _ => rfl
  | [], _ :: _, h => by simp at h
  | _ :: _, [], h => by simp at h
  | a :: l, b :: l', h => by
    simp only [List.map_cons, List.cons.injEq] at h
    rw [hf a b h.1, map_inj hf l l' h.2]

theorem option_inj {A B : Type} {f : A → B} (hf : ∀ a b, f a = f b → a = b) (o o' : Option A) (h : o.map f = o'.map f) : o = o' := by
  cases o <;> cases o' <;> simp at h
  · rfl
  · rw [hf _ _ h]

theorem utf8_inj (a b : Str) (h : utf8Enc a = utf8Enc b) : a = b := utf8_injective a b h

theorem sub_inj (a b : Laurelin.Sub) (h : Spec.Wire.ofSub a = Spec.Wire.ofSub b) : a = b := by
  cases a <;> cases b <;> simp only [Spec.Wire.ofSub, Spec.Wire.Sub.initial.injEq, Spec.Wire.Sub.any.injEq, Spec.Wire.Sub.final.injEq, reduceCtorEq] at h <;> rw [utf8_inj _ _ h]

mutual
theorem filter_inj : ∀ f g : Laurelin.Filter, Spec.Wire.ofFilter f = Spec.Wire.ofFilter g → f = g
  | .and l, g, h => by
    cases g <;> simp only [Spec.Wire.ofFilter, Spec.Wire.Filter.and.injEq, reduceCtorEq] at h
    rw [filters_inj l _ h]
  | .or l, g, h => by
    cases g <;> simp only [Spec.Wire.ofFilter, Spec.Wire.Filter.or.injEq, reduceCtorEq] at h
    rw [filters_inj l _ h]
  | .not f, g, h => by
    cases g <;> simp only [Spec.Wire.ofFilter, Spec.Wire.Filter.not.injEq, reduceCtorEq] at h
    rw [filter_inj f _ h]
  | .equality a v, g, h => by
    cases g <;> simp only [Spec.Wire.ofFilter, Spec.Wire.Filter.equalityMatch.injEq, reduceCtorEq] at h
    rw [utf8_inj _ _ h.1, utf8_inj _ _ h.2]
  | .approx a v, g, h => by
    cases g <;> simp only [Spec.Wire.ofFilter, Spec.Wire.Filter.approxMatch.injEq, reduceCtorEq] at h
    rw [utf8_inj _ _ h.1, utf8_inj _ _ h.2]
  | .greaterOrEqual a v, g, h => by
    cases g <;> simp only [Spec.Wire.ofFilter, Spec.Wire.Filter.greaterOrEqual.injEq, reduceCtorEq] at h
    rw [utf8_inj _ _ h.1, utf8_inj _ _ h.2]
  | .lessOrEqual a v, g, h => by
    cases g <;> simp only [Spec.Wire.ofFilter, Spec.Wire.Filter.lessOrEqual.injEq, reduceCtorEq] at h
    rw [utf8_inj _ _ h.1, utf8_inj _ _ h.2]
  | .present a, g, h => by
    cases g <;> simp only [Spec.Wire.ofFilter, Spec.Wire.Filter.present.injEq, reduceCtorEq] at h
    rw [utf8_inj _ _ h]
  | .substrings a l, g, h => by
    cases g <;> simp only [Spec.Wire.ofFilter, Spec.Wire.Filter.substrings.injEq, reduceCtorEq] at h
    rw [utf8_inj _ _ h.1, map_inj sub_inj _ _ h.2]
  | .extensible r a v d, g, h => by
    cases g <;> simp only [Spec.Wire.ofFilter, Spec.Wire.Filter.extensibleMatch.injEq, reduceCtorEq] at h
    rw [option_inj utf8_inj _ _ h.1, option_inj utf8_inj _ _ h.2.1, utf8_inj _ _ h.2.2.1, h.2.2.2]
theorem filters_inj : ∀ l l' : List Laurelin.Filter, Spec.Wire.ofFilters l = Spec.Wire.ofFilters l' → l = l'
  | [], [], _ => rfl
  | [], _ :: _, h => by simp [Spec.Wire.ofFilters] at h
  | _ :: _, [], h => by simp [Spec.Wire.ofFilters] at h
  | f :: l, g :: l', h => by
    simp only [Spec.Wire.ofFilters, List.cons.injEq] at h
    rw [filter_inj f g h.1, filters_inj l l' h.2]
end

theorem scope_inj (a b : Scope) (n : Int) (ha : Spec.Wire.scopeNumber a = some n) (hb : Spec.Wire.scopeNumber b = some n) : a = b := by
  cases a <;> cases b <;> simp only [Spec.Wire.scopeNumber, Option.some.injEq, reduceCtorEq] at ha hb <;> first | rfl | omega

theorem byte_inj (a b : Nat) (ha : a < 256) (hb : b < 256) (h : byte a = byte b) : a = b := by
  have := congrArg UInt8.toNat h
  rwa [byte_toNat a ha, byte_toNat b hb] at this

theorem bytes_inj : ∀ (l l' : List Nat), (∀ n ∈ l, n < 256) → (∀ n ∈ l', n < 256) → l.map byte = l'.map byte → l = l'
  | [], [], _, _, _ => rfl
  | [], _ :: _, _, _, h => by simp at h
  | _ :: _, [], _, _, h => by simp at h
  | a :: l, b :: l', h1, h2, h => by
    simp only [List.map_cons, List.cons.injEq] at h
    rw [byte_inj a b (h1 a (by simp)) (h2 b (by simp)) h.1, bytes_inj l l' (fun n hn => h1 n (by simp [hn])) (fun n hn => h2 n (by simp [hn])) h.2]

theorem control_inj (w w' : Controls.Wire) (h : Spec.Wire.PlainControl w) (h' : Spec.Wire.PlainControl w') (e : Spec.Wire.ofControl w = Spec.Wire.ofControl w') : w = w' := by
  obtain ⟨o, c, v⟩ := w
  obtain ⟨o', c', v'⟩ := w'
  simp only [Spec.Wire.ofControl, Spec.Wire.Control.mk.injEq] at e
  obtain ⟨e1, e2, e3⟩ := e
  have : v = v' := by
    cases v <;> cases v' <;> simp at e3
    · rfl
    · rw [bytes_inj _ _ (h.2 _ rfl) (h'.2 _ rfl) e3]
  rw [utf8_inj _ _ e1, e2, this]

theorem controls_inj : ∀ (l l' : List Controls.Wire), (∀ w ∈ l, Spec.Wire.PlainControl w) → (∀ w ∈ l', Spec.Wire.PlainControl w) → l.map Spec.Wire.ofControl = l'.map Spec.Wire.ofControl → l = l'
  | [], [], _, _, _ => rfl
  | [], _ :: _, _, _, h => by simp at h
  | _ :: _, [], _, _, h => by simp at h
  | a :: l, b :: l', h1, h2, h => by
    simp only [List.map_cons, List.cons.injEq] at h
    rw [control_inj a b (h1 a (by simp)) (h2 b (by simp)) h.1, controls_inj l l' (fun n hn => h1 n (by simp [hn])) (fun n hn => h2 n (by simp [hn])) h.2]

end WireR
open WireR

/-! ## C81 -/

/-- **C81 (no octets stand for two messages).** If octets begin with an encoding of one message and with an encoding of another, these are the same message and the same octets: what follows a
message never changes how it is read. -/
theorem c81_unambiguous (m m' : Spec.Wire.Message) (hm : m.Valid) (hm' : m'.Valid) (bs bs' r r' : Bytes) (h : m.enc Spec.Wire.x690 bs) (h' : m'.enc Spec.Wire.x690 bs')
    (e : bs ++ r = bs' ++ r') : m = m' ∧ bs = bs' := by
  have h1 := recv_ok m hm bs h r
  rw [e, recv_ok m' hm' bs' h' r'] at h1
  simp only [Res.ok.injEq, Prod.mk.injEq] at h1
  obtain ⟨h1, rfl⟩ := h1
  exact ⟨(message_inj _ _ h1).symm, List.append_cancel_right e⟩

/-- **C81 (what any server reads).** Whatever message of RFC 4511 a server reads from the octets a call sends, in any version of BER, it is the message with that ID, the operation that the
call stands for and the given controls. -/
theorem c81_server_reads (mid : Int) (c : Call) (ctrls : Option (List Controls.Wire)) (bs : Bytes) (h : send mid c.op ctrls = some bs) (m : Spec.Wire.Message) (hm : m.Valid)
    (hb : m.enc Spec.Wire.x690 bs) : m.id = mid ∧ Spec.Wire.asks c = some m.op ∧ m.controls = ctrls.map (fun l => l.map Spec.Wire.ofControl) := by
  obtain ⟨o, h1, h2, _, h3⟩ := c79_sent mid c ctrls bs h
  obtain ⟨rfl, _⟩ := c81_unambiguous m _ hm h2 bs bs [] [] hb h3 rfl
  exact ⟨rfl, h1, rfl⟩

/-- **C81 (a search, from the caller's text to the server).** If `search` sends octets, then the request a server reads from them has the caller's base, scope, limits and attributes, the
connection's defaults where the caller gave none, and the filter that the caller's filter text denotes in the chosen syntax. -/
theorem c81_search_reads {V R : Type} (conn : SearchConn V R) (a : SearchArgs V) (s : SearchSent V) (hs : ldapSearch conn a = .ok s) (mid : Int) (bs : Bytes)
    (h : send mid (Call.search s.req).op s.ctrls = some bs) (m : Spec.Wire.Message) (hm : m.Valid) (hb : m.enc Spec.Wire.x690 bs) :
    m.id = mid ∧ ∃ n f, Spec.Wire.scopeNumber a.scope = some n ∧ Spec.FilterOf conn a f ∧
      m.op = .searchRequest (utf8Enc a.base) n (Spec.orDefault a.deref conn.dfltDeref : Nat) a.limit (Spec.orDefault a.timeout conn.dfltTimeout : Nat) a.attrsOnly (Spec.Wire.ofFilter f)
        ((Spec.attrsOf a).map utf8Enc) := by
  obtain ⟨h1, h2, _⟩ := c81_server_reads mid _ _ bs h m hm hb
  have ha := ((c65_sent conn a s).1 hs).2
  refine ⟨h1, ?_⟩
  simp only [Spec.Wire.asks] at h2
  cases hn : Spec.Wire.scopeNumber s.req.scope with
  | none => rw [hn] at h2; cases h2
  | some n =>
    rw [hn] at h2
    simp only [Option.map_some, Option.some.injEq] at h2
    refine ⟨n, s.req.filter, by rw [← ha.scope]; exact hn, ha.filter, ?_⟩
    rw [← h2, ha.base, ha.deref, ha.limit, ha.timeout, ha.typesOnly, ha.attrs]

/-- **C81 (different requests, different octets).** Two searches that send the same octets have the same message ID and are the same in every argument, filter included. -/
theorem c81_search_injective (mid mid' : Int) (q q' : SearchReq) (ctrls ctrls' : Option (List Controls.Wire)) (bs : Bytes)
    (h : send mid (Call.search q).op ctrls = some bs) (h' : send mid' (Call.search q').op ctrls' = some bs) : mid = mid' ∧ q = q' := by
  obtain ⟨o, h1, h2, _, h3⟩ := c79_sent mid _ ctrls bs h
  obtain ⟨e1, e2, e3⟩ := c81_server_reads mid' _ ctrls' bs h' _ h2 h3
  refine ⟨e1, ?_⟩
  simp only [Spec.Wire.asks] at h1 e2
  cases hn : Spec.Wire.scopeNumber q.scope with
  | none => rw [hn] at h1; cases h1
  | some n =>
    cases hn' : Spec.Wire.scopeNumber q'.scope with
    | none => rw [hn'] at e2; cases e2
    | some n' =>
      rw [hn] at h1
      rw [hn'] at e2
      simp only [Option.map_some, Option.some.injEq] at h1 e2
      subst h1
      simp only [Spec.Wire.message, Spec.Wire.Op.searchRequest.injEq, Int.natCast_inj] at e2
      obtain ⟨f1, f2, f3, f4, f5, f6, f7, f8⟩ := e2
      subst f2
      have hsc := scope_inj _ _ _ hn hn'
      obtain ⟨b, sc, d, l, t, y, f, as⟩ := q
      obtain ⟨b', sc', d', l', t', y', f', as'⟩ := q'
      simp only at *
      rw [utf8_inj _ _ f1, hsc, f3, f4, f5, f6, filter_inj _ _ f7, map_inj utf8_inj _ _ f8]

/-- **C81 (controls).** Two requests that send the same octets have the same controls in the same order: type, criticality and value. -/
theorem c81_controls_injective (mid mid' : Int) (c c' : Call) (ctrls ctrls' : Option (List Controls.Wire)) (bs : Bytes)
    (h : send mid c.op ctrls = some bs) (h' : send mid' c'.op ctrls' = some bs)
    (hc : ∀ l, ctrls = some l → ∀ w ∈ l, Spec.Wire.PlainControl w) (hc' : ∀ l, ctrls' = some l → ∀ w ∈ l, Spec.Wire.PlainControl w) :
    ctrls = ctrls' ∧ Spec.Wire.asks c = Spec.Wire.asks c' := by
  obtain ⟨o, h1, h2, _, h3⟩ := c79_sent mid c ctrls bs h
  obtain ⟨e1, e2, e3⟩ := c81_server_reads mid' c' ctrls' bs h' _ h2 h3
  refine ⟨?_, by rw [h1, e2]; rfl⟩
  simp only [Spec.Wire.message] at e3
  cases ctrls <;> cases ctrls' <;> simp only [Option.map_none, Option.map_some, reduceCtorEq, Option.some.injEq] at e3
  · rfl
  · rw [controls_inj _ _ (hc _ rfl) (hc' _ rfl) e3]

/-! ## C80, a whole search -/

namespace WireR
open Laurelin.Received

/-- the message for an entry -/
theorem entry_view (id : Int) (dn : Str) (attrs : List (Str × List Bytes)) (hn : (attrs.map Prod.fst).Nodup) (hid : Spec.Wire.Int0Max id) (b : Bytes)
    (hb : Spec.Wire.Message.enc Spec.Wire.x690 (Spec.Wire.message id (.searchResEntry (utf8Enc dn) (attrs.map (fun p => ⟨utf8Enc p.1, p.2⟩))) none) b) :
    ∃ v, recv b = .ok (v, []) ∧ searchMsg v = some (.entry (dn, attrs.map (fun p => (p.1, p.2.map WireP.shown))) []) := by
  have hv : (Spec.Wire.message id (.searchResEntry (utf8Enc dn) (attrs.map (fun p => ⟨utf8Enc p.1, p.2⟩))) none).Valid := ⟨hid, trivial⟩
  have h1 := recv_ok _ hv b hb []
  rw [List.append_nil] at h1
  refine ⟨_, h1, ?_⟩
  have hu := unpack_view (Spec.Wire.message id (.searchResEntry (utf8Enc dn) (attrs.map (fun p => ⟨utf8Enc p.1, p.2⟩))) none) (str "searchResEntry") _ rfl
  rw [if_pos (by show str "searchResEntry" = str "searchResEntry"; rfl)] at hu
  have he : readEntry (.seq (.cons (.octets (utf8Enc dn)) (.cons (listV ((attrs.map (fun p => (⟨utf8Enc p.1, p.2⟩ : Spec.Wire.Attr))).map attrV)) .nil))) =
      some (dn, attrs.map (fun p => (p.1, p.2.map WireP.shown))) := by
    have h1 : ∀ as, field entryComps (str "objectName") (.seq (.cons (.octets (utf8Enc dn)) (.cons as .nil))) = some (.octets (utf8Enc dn)) := fun _ => rfl
    have h2 : ∀ as, field entryComps (str "attributes") (.seq (.cons (.octets (utf8Enc dn)) (.cons as .nil))) = some as := fun _ => rfl
    have h3 : textOf (.octets (utf8Enc dn)) = some dn := utf8_round_trip dn
    simp only [readEntry, h1, h2, Option.bind_some, h3, listV, elems, vals_ofList, read_attrs, Option.map_some]
    rw [foldl_distinct (fun l => l.map WireP.shown) attrs [] (by simpa using hn)]
    simp
  rw [searchMsg.eq_def, hu]
  simp only [he]
  rfl

theorem entries_views (id : Int) (hid : Spec.Wire.Int0Max id) (es : List (Str × List (Str × List Bytes))) (he : ∀ e ∈ es, (e.2.map Prod.fst).Nodup) :
    ∀ (l : List (Spec.Wire.Message × Bytes)), (∀ p ∈ l, p.1.enc Spec.Wire.x690 p.2) →
      l.map Prod.fst = es.map (fun e => Spec.Wire.message id (.searchResEntry (utf8Enc e.1) (e.2.map (fun p => ⟨utf8Enc p.1, p.2⟩))) none) →
      ∃ vs : List Val, l.map (fun p => recv p.2) = vs.map (fun v => Res.ok (v, [])) ∧
        vs.map searchMsg = es.map (fun e => some (.entry (e.1, e.2.map (fun p => (p.1, p.2.map WireP.shown))) [])) := by
  induction es with
  | nil =>
    intro l _ h
    have : l = [] := by simpa using h
    subst this
    exact ⟨[], rfl, rfl⟩
  | cons e es ih =>
    intro l hl h
    cases l with
    | nil => simp at h
    | cons p l =>
      simp only [List.map_cons, List.cons.injEq] at h
      obtain ⟨m, b⟩ := p
      obtain ⟨h1, h2⟩ := h
      simp only at h1
      subst h1
      obtain ⟨v, hv1, hv2⟩ := entry_view id e.1 e.2 (he e (by simp)) hid b (hl _ (List.mem_cons_self ..))
      obtain ⟨vs, hvs1, hvs2⟩ := ih (fun e h => he e (by simp [h])) l (fun p hp => hl p (by simp [hp])) h2
      refine ⟨v :: vs, ?_, ?_⟩
      · simp only [List.map_cons]; rw [hvs1, ← hv1]
      · simp only [List.map_cons]; rw [hvs2, ← hv2]

theorem map_append_split {A B : Type} (f : A → B) : ∀ (l : List A) (x : List B) (y : B), l.map f = x ++ [y] → ∃ l1 a, l = l1 ++ [a] ∧ l1.map f = x ∧ f a = y := by
  intro l x
  induction x generalizing l with
  | nil =>
    intro y h
    cases l with
    | nil => simp at h
    | cons a l =>
      simp only [List.map_cons, List.nil_append, List.cons.injEq, List.map_eq_nil_iff] at h
      exact ⟨[], a, by rw [h.2]; rfl, rfl, h.1⟩
  | cons b x ih =>
    intro y h
    cases l with
    | nil => simp at h
    | cons a l =>
      simp only [List.map_cons, List.cons_append, List.cons.injEq] at h
      obtain ⟨l1, a', e1, e2, e3⟩ := ih l y h.2
      exact ⟨a :: l1, a', by rw [e1]; rfl, by simp [h.1, e2], e3⟩

end WireR

/-- **C80 (a whole search, from octets to objects).** The server answers the search with some entries and success, in any BER encodings, cut into any chunks and mixed with messages for other
requests. Then iterating the search gives exactly these entries, in order, with their attributes and values, and stops. (No response controls.) -/
theorem c80_search {V R : Type} (env : Search.Env V R Received.Entry) (t : Controls.Target R) (sent : List (Spec.Wire.Message × Bytes))
    (h : ∀ p ∈ sent, p.1.Valid ∧ p.1.id ≠ 0 ∧ p.1.enc Spec.Wire.x690 p.2) (chunks : List Bytes) (hb : chunks.flatten = sent.flatMap Prod.snd) (want : Nat)
    (es : List (Str × List (Str × List Bytes))) (he : ∀ e ∈ es, (e.2.map Prod.fst).Nodup) (matched diag : Bytes)
    (hw : (sent.filter (fun p => p.1.id = (want : Int))).map Prod.fst =
      es.map (fun e => Spec.Wire.message want (.searchResEntry (utf8Enc e.1) (e.2.map (fun p => ⟨utf8Enc p.1, p.2⟩))) none) ++
        [Spec.Wire.message want (.searchResDone ⟨0, matched, diag, none⟩) none]) :
    ∃ (outs : List Received.Decoded) (msgs : List (Search.Msg Received.Entry)) (shown : Bytes → AVal),
      nexts codec want outs.length (.top []) (Net.World.init chunks).sock = outs.map .yields ∧ outs.map (fun d => Received.searchMsg d.1.1) = msgs.map some ∧
      (∀ b, Spec.Wire.Shows b (shown b)) ∧
      (Search.iterate env none t msgs).yields = es.map (fun e => .entry (e.1, e.2.map (fun p => (p.1, p.2.map shown))) []) ∧
      (Search.iterate env none t msgs).ending = .stop := by
  obtain ⟨outs, ho1, ho2⟩ := c80_stream sent h chunks hb want
  obtain ⟨l1, a, e1, e2, e3⟩ := map_append_split _ _ _ _ hw
  have hmem : ∀ p ∈ sent.filter (fun p => p.1.id = (want : Int)), p.1.Valid ∧ p.1.id ≠ 0 ∧ p.1.enc Spec.Wire.x690 p.2 := fun p hp => h p (List.mem_filter.1 hp).1
  rw [e1] at hmem ho2
  have ha := hmem a (by simp)
  obtain ⟨m, b⟩ := a
  simp only at e3 ha
  subst e3
  have hid : Spec.Wire.Int0Max want := ha.1.1
  obtain ⟨vs, hv1, hv2⟩ := entries_views want hid es he l1 (fun p hp => (hmem p (by simp [hp])).2.2) e2
  obtain ⟨v, hd1, _, hd2⟩ := c80_done want hid 0 matched diag none none (by simp) b [] ha.2.2
  rw [List.append_nil] at hd1
  refine ⟨outs, es.map (fun e => .entry (e.1, e.2.map (fun p => (p.1, p.2.map WireP.shown))) []) ++ [.done 0 [] []], WireP.shown, ho1, ?_, shown_ok, ?_⟩
  · have hvals : outs.map (fun d => d.1.1) = vs ++ [v] := by
      rw [List.map_append, hv1, List.map_cons, hd1] at ho2
      have hh := congrArg (List.map (fun r : Res (Val × Bytes) => match r with | .ok (x, _) => x | _ => Val.null)) ho2
      simp only [List.map_map, List.map_append] at hh
      simpa [Function.comp_def] using hh
    have : outs.map (fun d => Received.searchMsg d.1.1) = (outs.map (fun d => d.1.1)).map Received.searchMsg := by rw [List.map_map]; rfl
    rw [this, hvals, List.map_append, hv2, List.map_append, List.map_map]
    simp only [List.map_cons, hd2, List.map_nil, Option.getD_none]
    rfl
  · have hp : ∀ es : List (Str × List (Str × List Bytes)), Spec.Pairwise2 (Props.Received env)
        (es.map (fun e => Search.Msg.entry (e.1, e.2.map (fun p => (p.1, p.2.map WireP.shown))) []))
        (es.map (fun e => [Search.Item.entry (e.1, e.2.map (fun p => (p.1, p.2.map WireP.shown))) []])) := by
      intro es
      induction es with
      | nil => exact .nil
      | cons e es ih => exact .cons (.entry _ [] env.objOwn [] rfl) ih
    have := c56_iterates env t t _ [] _ 0 [] [] (hp es) (by simp) rfl
    simp only at this
    refine ⟨?_, this.2.2.2.1 (Or.inl trivial)⟩
    rw [this.1]
    clear this hw hv2 e2 he
    induction es with
    | nil => rfl
    | cons e es ih => simp only [List.map_cons, List.flatten_cons, ih]; rfl

namespace WireR
open Spec.ResultsS

theorem shows_unique (b : Bytes) (v w : AVal) (h1 : Spec.Wire.Shows b v) (h2 : Spec.Wire.Shows b w) : v = w := by
  cases v with
  | text s =>
    cases w with
    | text s' =>
      have h1 : b = utf8Enc s := h1
      have h2 : b = utf8Enc s' := h2
      rw [utf8_inj s s' (by rw [← h1, h2])]
    | raw c => exact (h2.2 s h1).elim
  | raw c =>
    cases w with
    | text s => exact (h1.2 s h2).elim
    | raw c' => rw [h1.1, h2.1]

theorem shows_all (shown : Bytes → AVal) (hs : ∀ b, Spec.Wire.Shows b (shown b)) : ∀ (bs : List Bytes) (vs : List AVal), Spec.Pairwise2 Spec.Wire.Shows bs vs → vs = bs.map shown
  | _, _, .nil => rfl
  | _, _, .cons h t => by rw [List.map_cons, ← shows_all shown hs _ _ t, shows_unique _ _ _ h (hs _)]

theorem attrs_all (shown : Bytes → AVal) (hs : ∀ b, Spec.Wire.Shows b (shown b)) : ∀ (attrs : List (Str × List Bytes)) (d : PDict Str (List AVal)),
    Spec.Pairwise2 (fun (p : Str × List Bytes) q => q.1 = p.1 ∧ Spec.Pairwise2 Spec.Wire.Shows p.2 q.2) attrs d → d = attrs.map (fun p => (p.1, p.2.map shown))
  | _, _, .nil => rfl
  | _, _, .cons (b := q) h t => by
    rw [List.map_cons, ← attrs_all shown hs _ _ t, ← h.1, ← shows_all shown hs _ _ h.2]

theorem gained_handled {V R : Type} (reg : Controls.Reg V R) (own : List Str) (ctrls : Option (List Controls.Wire)) (gained : List (Str × R)) (h : Gained reg own ctrls gained) :
    Controls.handleResponse reg ⟨own, []⟩ (ctrls.getD []) = (.ok (), ⟨own, gained⟩) :=
  (c31_stored_partial reg ⟨own, []⟩ ⟨own, gained⟩ (ctrls.getD [])).2 ⟨gained, by simp, h.1, h.2.1, fun p hp => ⟨h.2.2 p hp, by simp [PDict.keys]⟩⟩

/-- one piece, from octets to what the loop makes of it -/
theorem piece_view {V R : Type} (env : Search.Env V R Received.Entry) (id : Int) (hid : Spec.Wire.Int0Max id) (p : Piece) (item : Search.Item Received.Entry R) (hg : p.Gives env item)
    (hc : ∀ l, p.ctrls = some l → ∀ w ∈ l, Spec.Wire.PlainControl w) (b : Bytes) (hb : (p.message id).enc Spec.Wire.x690 b) :
    ∃ v msg, recv b = .ok (v, []) ∧ Received.searchMsg v = some msg ∧ Props.Received env msg [item] := by
  cases hg with
  | entry dn attrs ctrls shown gained hn hs hgain =>
    obtain ⟨v, h1, _, d, h2, sh, h3, _, h4⟩ := c80_entry id hid dn attrs ctrls hc b [] hb
    rw [List.append_nil] at h1
    refine ⟨v, _, h1, h2, ?_⟩
    rw [h4 hn, ← attrs_all sh h3 _ _ hs]
    exact .entry _ _ _ _ (gained_handled _ _ _ _ hgain)
  | reference uris ctrls gained hf hgain =>
    obtain ⟨v, h1, _, h2⟩ := c80_reference id hid uris ctrls hc b [] hb
    rw [List.append_nil] at h1
    exact ⟨v, _, h1, h2, .ref _ _ _ _ hf (gained_handled _ _ _ _ hgain)⟩

theorem pieces_views {V R : Type} (env : Search.Env V R Received.Entry) (id : Int) (hid : Spec.Wire.Int0Max id) {ps : List Piece} {items : List (Search.Item Received.Entry R)}
    (hg : Spec.Pairwise2 (Piece.Gives env) ps items) (hc : ∀ p ∈ ps, ∀ l, p.ctrls = some l → ∀ w ∈ l, Spec.Wire.PlainControl w) :
    ∀ (l : List (Spec.Wire.Message × Bytes)), (∀ p ∈ l, p.1.enc Spec.Wire.x690 p.2) → l.map Prod.fst = ps.map (Piece.message id) →
      ∃ (vs : List Val) (msgs : List (Search.Msg Received.Entry)), l.map (fun p => recv p.2) = vs.map (fun v => Res.ok (v, [])) ∧ vs.map Received.searchMsg = msgs.map some ∧
        Spec.Pairwise2 (Props.Received env) msgs (items.map (fun i => [i])) := by
  induction hg with
  | nil =>
    intro l _ h
    have : l = [] := by simpa using h
    subst this
    exact ⟨[], [], rfl, rfl, .nil⟩
  | cons hp _ ih =>
    intro l hl h
    cases l with
    | nil => simp at h
    | cons q l =>
      simp only [List.map_cons, List.cons.injEq] at h
      obtain ⟨m, b⟩ := q
      obtain ⟨h1, h2⟩ := h
      simp only at h1
      subst h1
      obtain ⟨v, msg, hv1, hv2, hv3⟩ := piece_view env id hid _ _ hp (hc _ (List.mem_cons_self ..)) b (hl _ (List.mem_cons_self ..))
      obtain ⟨vs, msgs, hvs1, hvs2, hvs3⟩ := ih (fun p hp => hc p (List.mem_cons_of_mem _ hp)) l (fun p hp => hl p (List.mem_cons_of_mem _ hp)) h2
      refine ⟨v :: vs, msg :: msgs, ?_, ?_, .cons hv3 hvs3⟩
      · simp only [List.map_cons]; rw [hvs1, ← hv1]
      · simp only [List.map_cons]; rw [hvs2, ← hv2]

end WireR
open Spec.ResultsS

/-- **C80 (a whole search, with references and response controls).** The server answers the search with entries and references and then a result, all with response controls or without, in any BER
encodings, cut into any chunks and mixed with messages for other requests. Then iterating the search gives exactly these, in order, each with the attributes its controls give, and ends as the result says:
it stops, or raises unless the result is success, noSuchObject or a referral that is not followed. The controls of the result come as attributes of the handle. -/
theorem c80_search_controls {V R : Type} (env : Search.Env V R Received.Entry) (t : Controls.Target R) (sent : List (Spec.Wire.Message × Bytes))
    (h : ∀ p ∈ sent, p.1.Valid ∧ p.1.id ≠ 0 ∧ p.1.enc Spec.Wire.x690 p.2) (chunks : List Bytes) (hb : chunks.flatten = sent.flatMap Prod.snd) (want : Nat)
    (pieces : List Piece) (items : List (Search.Item Received.Entry R)) (hg : Spec.Pairwise2 (Piece.Gives env) pieces items)
    (hc : ∀ p ∈ pieces, ∀ l, p.ctrls = some l → ∀ w ∈ l, Spec.Wire.PlainControl w)
    (code : Nat) (matched diag : Bytes) (refs : Option (List Str)) (ctrls : Option (List Controls.Wire)) (hcd : ∀ l, ctrls = some l → ∀ w ∈ l, Spec.Wire.PlainControl w)
    (gained : List (Str × R)) (hgd : Gained env.reg (t.own ++ t.got.keys) ctrls gained) (hr : code = 10 → env.follow = false)
    (hw : (sent.filter (fun p => p.1.id = (want : Int))).map Prod.fst =
      pieces.map (Piece.message want) ++ [Spec.Wire.message want (.searchResDone ⟨code, matched, diag, refs.map (fun l => l.map utf8Enc)⟩) ctrls]) :
    ∃ (outs : List Received.Decoded) (msgs : List (Search.Msg Received.Entry)),
      nexts codec want outs.length (.top []) (Net.World.init chunks).sock = outs.map .yields ∧ outs.map (fun d => Received.searchMsg d.1.1) = msgs.map some ∧
      let o := Search.iterate env none t msgs
      o.yields = items ∧ (code = 0 ∨ code = 32 ∨ code = 10 → o.ending = .stop) ∧ (code ≠ 0 ∧ code ≠ 32 ∧ code ≠ 10 → o.ending = .raised .ldapError) ∧
      (code = 0 ∨ code = 32 → o.target = ⟨t.own, t.got ++ gained⟩) := by
  obtain ⟨outs, ho1, ho2⟩ := c80_stream sent h chunks hb want
  obtain ⟨l1, a, e1, e2, e3⟩ := map_append_split _ _ _ _ hw
  have hmem : ∀ p ∈ sent.filter (fun p => p.1.id = (want : Int)), p.1.Valid ∧ p.1.id ≠ 0 ∧ p.1.enc Spec.Wire.x690 p.2 := fun p hp => h p (List.mem_filter.1 hp).1
  rw [e1] at hmem ho2
  have ha := hmem a (by simp)
  obtain ⟨m, b⟩ := a
  simp only at e3 ha
  subst e3
  have hid : Spec.Wire.Int0Max want := ha.1.1
  obtain ⟨vs, msgs, hv1, hv2, hv3⟩ := pieces_views env want hid hg hc l1 (fun p hp => (hmem p (by simp [hp])).2.2) e2
  obtain ⟨v, hd1, _, hd2⟩ := c80_done want hid code matched diag refs ctrls hcd b [] ha.2.2
  rw [List.append_nil] at hd1
  refine ⟨outs, msgs ++ [.done code (ctrls.getD []) (refs.getD [])], ho1, ?_, ?_⟩
  · have hvals : outs.map (fun d => d.1.1) = vs ++ [v] := by
      rw [List.map_append, hv1, List.map_cons, hd1] at ho2
      have hh := congrArg (List.map (fun r : Res (Val × Bytes) => match r with | .ok (x, _) => x | _ => Val.null)) ho2
      simp only [List.map_map, List.map_append] at hh
      simpa [Function.comp_def] using hh
    have : outs.map (fun d => Received.searchMsg d.1.1) = (outs.map (fun d => d.1.1)).map Received.searchMsg := by rw [List.map_map]; rfl
    rw [this, hvals, List.map_append, hv2, List.map_append]
    simp only [List.map_cons, hd2, List.map_nil]
  · have hh := (c31_stored_partial env.reg t ⟨t.own, t.got ++ gained⟩ (ctrls.getD [])).2 ⟨gained, rfl, hgd.1, hgd.2.1, fun p hp => by
      have := hgd.2.2 p hp
      rw [List.mem_append, not_or] at this
      exact this⟩
    have := c56_iterates env t _ msgs [] _ code (ctrls.getD []) (refs.getD []) hv3 hr hh
    dsimp only at this ⊢
    refine ⟨?_, this.2.2.2.1, this.2.2.2.2.1, this.2.2.2.2.2⟩
    rw [this.1]
    clear this hg hv3
    induction items with
    | nil => rfl
    | cons i items ih => rw [List.map_cons, List.flatten_cons, ih]; rfl

/-! ## Findings and examples -/

/-- **C79, finding.** RFC 4511 5.1 is not followed by any request to remove the old RDN (what `rename` and `move` ask for unless told otherwise), nor by any with a critical control. -/
theorem c79_true_not_ff (mid : Int) (ctrls : Option (List Controls.Wire)) (bs : Bytes) :
    (∀ q : ModDnReq, q.deleteOld = true → send mid (Call.modDn q).op ctrls = some bs →
      ∀ o, Spec.Wire.asks (.modDn q) = some o → ¬ (Spec.Wire.message mid o ctrls).enc Spec.Wire.strict bs) ∧
    (∀ (c : Call) (l : List Controls.Wire) (w : Controls.Wire), ctrls = some l → w ∈ l → w.critical = true → send mid c.op ctrls = some bs →
      ∀ o, Spec.Wire.asks c = some o → ¬ (Spec.Wire.message mid o ctrls).enc Spec.Wire.strict bs) := by
  constructor
  · intro q hq h o ho hs
    have := (c79_strict_partial mid _ ctrls bs h o ho).1 hs
    cases ho
    simp [Spec.Wire.Message.noTrue, Spec.Wire.message, Spec.Wire.Op.noTrue, hq] at this
  · rintro c l w rfl hw hcr h o ho hs
    have := (c79_strict_partial mid _ _ bs h o ho).1 hs
    simp only [Spec.Wire.Message.noTrue, Spec.Wire.message, Option.map_some, Option.getD_some, List.all_map, Bool.and_eq_true, List.all_eq_true] at this
    have := this.2 w hw
    simp [Spec.Wire.ofControl, hcr] at this

namespace WireR

/-- octets that the model's encoder gives are an encoding, to show that hypotheses can be met -/
theorem has_enc (m : Spec.Wire.Message) (bs : Bytes) (h : encode filterAlts ldapMessage (messageV m) = some bs) : m.Valid ∧ m.enc Spec.Wire.x690 bs := by
  have e := encode_ok _ _ _ _ h
  have hv := message_valid _ _ _ e
  refine ⟨hv, ?_⟩
  rw [← message_enc _ _ hv]
  exact EncT_mono (U := code) (V := Spec.Wire.x690) _ (fun b hb => by cases hb; show (1 : UInt8) ≠ 0; decide) (fun _ => trivial) (fun h => h) _ _ _ e

/-- a search for `(&(cn=a)(mail=*))` below `o`, one level, with attribute `cn` -/
def sampleSearch : SearchReq := ⟨str "o", .one, 0, 5, 0, false, .and [.equality (str "cn") (str "a"), .present (str "mail")], [str "cn"]⟩

example : send 7 (Call.search sampleSearch).op none = some [0x30, 46, 2, 1, 7, 0x63, 41, 4, 1, 0x6F, 10, 1, 1, 10, 1, 0, 2, 1, 5, 2, 1, 0, 1, 1, 0,
    0xA0, 15, 0xA3, 7, 4, 2, 0x63, 0x6E, 4, 1, 0x61, 0x87, 4, 0x6D, 0x61, 0x69, 0x6C, 0x30, 4, 4, 2, 0x63, 0x6E] := by decide +kernel

/-- removing the old RDN with a critical control: two octets 01 -/
example : send 2 (Call.modDn ⟨str "cn=a", str "cn=b", true, none⟩).op (some [⟨str "1.2", true, none⟩]) =
    some [0x30, 32, 2, 1, 2, 0x6C, 15, 4, 4, 0x63, 0x6E, 0x3D, 0x61, 4, 4, 0x63, 0x6E, 0x3D, 0x62, 1, 1, 1, 0xA0, 10, 0x30, 8, 4, 3, 0x31, 0x2E, 0x32, 1, 1, 1] := by decide +kernel

example : send 2147483648 (Call.delete (str "cn=a")).op none = none ∧ send 1 (Call.delete (str "cn=a")).op none = some [0x30, 9, 2, 1, 1, 0x4A, 4, 0x63, 0x6E, 0x3D, 0x61] := by decide +kernel

def entryA : Spec.Wire.Message := Spec.Wire.message 3 (.searchResEntry (utf8Enc (str "cn=a")) [⟨utf8Enc (str "cn"), [[0x61], [0xFF]]⟩]) none
def doneA : Spec.Wire.Message := Spec.Wire.message 3 (.searchResDone ⟨0, [], [], none⟩) none
def foreignA : Spec.Wire.Message := Spec.Wire.message 4 (.delResponse ⟨32, [], [], none⟩) none
def entryO : Bytes := [0x30, 27, 2, 1, 3, 0x64, 22, 4, 4, 0x63, 0x6E, 0x3D, 0x61, 0x30, 14, 0x30, 12, 4, 2, 0x63, 0x6E, 0x31, 6, 4, 1, 0x61, 4, 1, 0xFF]
def doneO : Bytes := [0x30, 12, 2, 1, 3, 0x65, 7, 10, 1, 0, 4, 0, 4, 0]
def foreignO : Bytes := [0x30, 12, 2, 1, 4, 0x6B, 7, 10, 1, 32, 4, 0, 4, 0]

/-- the hypotheses of `c80_stream` and `c80_search` are met: an entry with a value that is not UTF-8, a response to another request between, in two chunks that do not end where messages end -/
example : (∀ p ∈ [(entryA, entryO), (foreignA, foreignO), (doneA, doneO)], p.1.Valid ∧ p.1.id ≠ 0 ∧ p.1.enc Spec.Wire.x690 p.2) ∧
    [entryO.take 5, entryO.drop 5 ++ foreignO ++ doneO].flatten = [(entryA, entryO), (foreignA, foreignO), (doneA, doneO)].flatMap Prod.snd ∧
    ([(entryA, entryO), (foreignA, foreignO), (doneA, doneO)].filter (fun p => p.1.id = ((3 : Nat) : Int))).map Prod.fst =
      [(str "cn=a", [(str "cn", [([0x61] : Bytes), [0xFF]])])].map (fun e => Spec.Wire.message (3 : Nat) (.searchResEntry (utf8Enc e.1) (e.2.map (fun p => ⟨utf8Enc p.1, p.2⟩))) none) ++
        [Spec.Wire.message (3 : Nat) (.searchResDone ⟨0, [], [], none⟩) none] := by
  have h1 := has_enc entryA entryO (by decide +kernel)
  have h2 := has_enc foreignA foreignO (by decide +kernel)
  have h3 := has_enc doneA doneO (by decide +kernel)
  refine ⟨?_, by decide +kernel, by rfl⟩
  intro p hp
  simp only [List.mem_cons, List.not_mem_nil, or_false] at hp
  rcases hp with rfl | rfl | rfl
  · exact ⟨h1.1, by decide, h1.2⟩
  · exact ⟨h2.1, by decide, h2.2⟩
  · exact ⟨h3.1, by decide, h3.2⟩

section
open Spec.ResultsS
def cookie : Controls.Cls Unit (List Nat) := { method := .names [str "search"], keyword := str "k", responseAttr := str "cookie", requestOid := str "1.2", responseOid := str "1.1", prepare := fun _ => .ok [], handle := fun v => .ok (v.getD []) }
def cookieEnv : Search.Env Unit (List Nat) Received.Entry := ⟨({} : Controls.Reg Unit (List Nat)).registerAll [cookie], false, false, [str "dn"], [str "uris"], fun _ => ([], none)⟩
def cutA : Spec.Wire.Message := Spec.Wire.message 3 (.searchResDone ⟨0, [], [], none⟩) (some [⟨str "1.1", true, some [7]⟩])
def refA : Spec.Wire.Message := Spec.Wire.message 3 (.searchResRef [utf8Enc (str "u")]) none
def entA : Spec.Wire.Message := Spec.Wire.message 3 (.searchResEntry (utf8Enc (str "o")) [⟨utf8Enc (str "c"), [[0x61], [0xFF]]⟩]) (some [⟨str "1.1", false, some [9]⟩])
def cutO : Bytes := [48, 27, 2, 1, 3, 101, 7, 10, 1, 0, 4, 0, 4, 0, 160, 13, 48, 11, 4, 3, 49, 46, 49, 1, 1, 1, 4, 1, 7]
def refO : Bytes := [48, 8, 2, 1, 3, 115, 3, 4, 1, 117]
def entO : Bytes := [48, 35, 2, 1, 3, 100, 18, 4, 1, 111, 48, 13, 48, 11, 4, 1, 99, 49, 6, 4, 1, 97, 4, 1, 255, 160, 10, 48, 8, 4, 3, 49, 46, 49, 4, 1, 9]

/-- an entry with a response control, a reference, another request's response, and a result with a response control: the hypotheses of `c80_search_controls` are met, and so the loop gives both -/
example : ∃ (outs : List Received.Decoded) (msgs : List (Search.Msg Received.Entry)),
    nexts codec 3 outs.length (.top []) (Net.World.init [entO.take 7, entO.drop 7 ++ refO ++ foreignO ++ cutO]).sock = outs.map .yields ∧
    outs.map (fun d => Received.searchMsg d.1.1) = msgs.map some ∧
    (Search.iterate cookieEnv none ⟨[str "mid"], []⟩ msgs).yields =
      [.entry (str "o", [(str "c", [.text (str "a"), .raw [0xFF]])]) [(str "cookie", [9])], .ref [str "u"] []] ∧
    (Search.iterate cookieEnv none ⟨[str "mid"], []⟩ msgs).target = ⟨[str "mid"], [(str "cookie", [7])]⟩ := by
  have h1 := has_enc entA entO (by decide +kernel)
  have h2 := has_enc refA refO (by decide +kernel)
  have h3 := has_enc cutA cutO (by decide +kernel)
  have h4 := has_enc foreignA foreignO (by decide +kernel)
  have hg : ∀ (taken : List Str) (n : Nat) (crit : Bool), str "cookie" ∉ taken → Gained cookieEnv.reg taken (some [⟨str "1.1", crit, some [n]⟩]) [(str "cookie", [n])] := fun taken n crit ht =>
    ⟨.cons ⟨cookie, rfl, rfl, rfl⟩ .nil, by simp, fun p hp => by rw [List.mem_singleton.1 hp]; exact ht⟩
  have hp : ∀ (crit : Bool) (n : Nat) (l : List Controls.Wire), n < 256 → some [(⟨str "1.1", crit, some [n]⟩ : Controls.Wire)] = some l → ∀ w ∈ l, Spec.Wire.PlainControl w := by
    intro crit n l hn hl w hw
    rw [← Option.some.inj hl, List.mem_singleton] at hw
    subst hw
    refine ⟨by dsimp only; decide, fun v hv k hk => ?_⟩
    cases hv
    rw [List.mem_singleton.1 hk]
    exact hn
  have hff : Spec.Wire.Shows ([0xFF] : Bytes) (.raw [0xFF]) := ⟨rfl, fun s e => by
    have := utf8_round_trip s
    rw [← e] at this
    rw [show utf8Dec [0xFF] = none by decide +kernel] at this
    cases this⟩
  have hx : ∃ (outs : List Received.Decoded) (msgs : List (Search.Msg Received.Entry)),
    nexts codec 3 outs.length (.top []) (Net.World.init [entO.take 7, entO.drop 7 ++ refO ++ foreignO ++ cutO]).sock = outs.map .yields ∧ outs.map (fun d => Received.searchMsg d.1.1) = msgs.map some ∧ _ :=
    c80_search_controls cookieEnv ⟨[str "mid"], []⟩ [(entA, entO), (refA, refO), (foreignA, foreignO), (cutA, cutO)] (by
      intro p hp
      simp only [List.mem_cons, List.not_mem_nil, or_false] at hp
      rcases hp with rfl | rfl | rfl | rfl
      · exact ⟨h1.1, by decide, h1.2⟩
      · exact ⟨h2.1, by decide, h2.2⟩
      · exact ⟨h4.1, by decide, h4.2⟩
      · exact ⟨h3.1, by decide, h3.2⟩) [entO.take 7, entO.drop 7 ++ refO ++ foreignO ++ cutO] (by decide +kernel) 3
    [.entry (str "o") [(str "c", [[0x61], [0xFF]])] (some [⟨str "1.1", false, some [9]⟩]), .reference [str "u"] none]
    [.entry (str "o", [(str "c", [.text (str "a"), .raw [0xFF]])]) [(str "cookie", [9])], .ref [str "u"] []]
    (.cons (.entry _ _ _ _ _ (by decide) (.cons ⟨rfl, .cons (by rfl) (.cons hff .nil)⟩ .nil) (hg _ _ _ (by decide))) (.cons (.reference _ _ _ rfl ⟨.nil, .nil, nofun⟩) .nil))
    (by
      intro p hp' l hl
      rcases List.mem_cons.1 hp' with rfl | hp'
      · exact hp false 9 l (by omega) hl
      · rw [List.mem_singleton.1 hp'] at hl
        cases hl)
    0 [] [] none (some [⟨str "1.1", true, some [7]⟩]) (fun l hl => hp true 7 l (by omega) hl) [(str "cookie", [7])] (hg _ _ _ (by decide)) (fun h => by cases h) (by rfl)
  obtain ⟨outs, msgs, k1, k2, k3⟩ := hx
  exact ⟨outs, msgs, k1, k2, k3.1, k3.2.2.2 (.inl rfl)⟩
end

/-- the same result with its outer length in the long form and a different octet for TRUE in a control: also read -/
example : recv [0x30, 0x81, 23, 2, 1, 3, 0x65, 7, 10, 1, 0, 4, 0, 4, 0, 0xA0, 9, 0x30, 7, 4, 2, 0x31, 0x2E, 1, 1, 0xFF] =
    .ok (messageV (Spec.Wire.message 3 (.searchResDone ⟨0, [], [], none⟩) (some [⟨str "1.", true, none⟩])), []) := by rfl

end WireR

/-- **C80, finding.** RFC 4511 section 4 wants clients to ignore components at the end of a SEQUENCE that they do not know. A search result with one such component (tag [12]) behind the others is
not read: decoding fails. So is a message with one behind its controls. -/
theorem c80_extension_refused :
    recv [0x30, 15, 2, 1, 3, 0x65, 10, 10, 1, 0, 4, 0, 4, 0, 0x8C, 1, 0] = .bad ∧ recv [0x30, 15, 2, 1, 3, 0x65, 7, 10, 1, 0, 4, 0, 4, 0, 0x8C, 1, 0] = .bad ∧
    recv [0x30, 12, 2, 1, 3, 0x65, 7, 10, 1, 0, 4, 0, 4, 0] = .ok (messageV (Spec.Wire.message 3 (.searchResDone ⟨0, [], [], none⟩) none), []) :=
  ⟨by rfl, by rfl, by rfl⟩

end Laurelin.Props
