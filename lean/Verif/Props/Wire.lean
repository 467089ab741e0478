import Verif.Lemmas.Wire
import Verif.Model.Received
import Verif.Props.Net
/-!
# C79 requests on the wire; C80 answers from the wire; C81 no two messages share an encoding
-/
namespace Laurelin.Props
open Laurelin Codec Asn1 Rfc4511 Wire
namespace WireP

theorem good_filter : Alts.good filterAlts filterAlts = true := by decide +kernel
theorem good_message : Ty.good filterAlts ldapMessage = true := by decide +kernel

/-! ## What the code builds -/

theorem ava_val (a v : Str) : avaVal a v = some (avaV (utf8Enc a) (utf8Enc v)) := rfl

theorem sub_val (s : Laurelin.Sub) : subVal s = subV (Spec.Wire.ofSub s) := by cases s <;> rfl

mutual
theorem filter_val : ∀ f : Laurelin.Filter, filterVal f = some (filterV (Spec.Wire.ofFilter f))
  | .and l => by rw [filterVal, filters_val l]; rfl
  | .or l => by rw [filterVal, filters_val l]; rfl
  | .not f => by rw [filterVal, filter_val f]; rfl
  | .equality a v => by rw [filterVal, ava_val]; rfl
  | .approx a v => by rw [filterVal, ava_val]; rfl
  | .greaterOrEqual a v => by rw [filterVal, ava_val]; rfl
  | .lessOrEqual a v => by rw [filterVal, ava_val]; rfl
  | .present a => by rw [filterVal]; rfl
  | .substrings a l => by
    have : l.map subVal = (l.map Spec.Wire.ofSub).map subV := by simp [sub_val]
    rw [filterVal, this]; rfl
  | .extensible rule attr v dn => by
    rw [filterVal]
    cases rule <;> cases attr <;> rfl
theorem filters_val : ∀ l : List Laurelin.Filter, filterVals l = some (filtersV (Spec.Wire.ofFilters l))
  | [] => rfl
  | f :: l => by rw [filterVals, filter_val f, filters_val l]; rfl
end

theorem ascii_utf8 (s : Str) : ∀ b, Paged.encByte 128 s = some b → b = utf8Enc s := by
  induction s with
  | nil => intro b h; cases h; rfl
  | cons c s ih =>
    intro b h
    rw [Paged.encByte] at h
    split at h
    · rename_i hc
      cases hs : Paged.encByte 128 s with
      | none => rw [hs] at h; cases h
      | some b' =>
        rw [hs] at h
        cases h
        rw [ih b' hs]
        simp only [utf8Enc, List.flatMap_cons, utf8Char]
        rw [if_pos hc]
        rfl
    · cases h

theorem ascii_enc (s : Str) (h : ∀ c ∈ s, c.toNat < 128) : Paged.encByte 128 s = some (utf8Enc s) := by
  have : ∃ b, Paged.encByte 128 s = some b := by
    induction s with
    | nil => exact ⟨[], rfl⟩
    | cons c s ih =>
      obtain ⟨b, hb⟩ := ih (fun c hc => h c (List.mem_cons_of_mem _ hc))
      exact ⟨byte c.toNat :: b, by rw [Paged.encByte, if_pos (h c (List.mem_cons_self ..)), hb]; rfl⟩
  obtain ⟨b, hb⟩ := this
  rw [hb, ascii_utf8 s b hb]

theorem attr_vals (l : List AVal) : attrVals l = listV ((l.map (·.bytes)).map oct) := by
  simp only [attrVals, listVal, listV, List.map_map]
  rfl

theorem attribute_val (p : Str × List AVal) : attributeVal p.1 p.2 = some (attrV (Spec.Wire.ofAttr p)) := by
  rw [attributeVal, attr_vals]; rfl

theorem attributes_val (l : List (Str × List AVal)) : attributeVals l = some (Items.ofList ((l.map Spec.Wire.ofAttr).map attrV)) := by
  induction l with
  | nil => rfl
  | cons p l ih =>
    obtain ⟨n, vs⟩ := p
    rw [attributeVals, ih, attribute_val (n, vs)]; rfl

theorem change_val (c : Change AVal) : changeVal c = some (changeV (Spec.Wire.modNumber c.op, Spec.Wire.ofAttr (c.attr, c.vals))) := by
  cases hc : c.op <;> (rw [changeVal, hc, attribute_val (c.attr, c.vals)]; rfl)

theorem changes_val (l : List (Change AVal)) :
    changeVals l = some (Items.ofList ((l.map (fun c => (Spec.Wire.modNumber c.op, Spec.Wire.ofAttr (c.attr, c.vals)))).map changeV)) := by
  induction l with
  | nil => rfl
  | cons c l ih => rw [changeVals, change_val, ih]; rfl

/-- the OIDs of the call are ASCII text -/
def oidsOk : Call → Prop
  | .extended o _ => ∀ c ∈ o, c.toNat < 128
  | _ => True

theorem octs_utf8 (l : List Str) : listVal (l.map utf8) = octs (l.map utf8Enc) := by
  simp only [listVal, octs, listV, List.map_map]; rfl

theorem scope_val (s : Scope) : scopeVal s = (Spec.Wire.scopeNumber s).map .int := by cases s <;> rfl

theorem call_ok (c : Call) (o : Spec.Wire.Op) (h : Spec.Wire.asks c = some o) (ha : oidsOk c) : ∃ n v, c.op = some (n, v) ∧ opV o = .choice n v := by
  cases c with
  | simpleBind u p => cases h; exact ⟨_, _, rfl, rfl⟩
  | saslBind m r => cases h; cases r <;> exact ⟨_, _, rfl, rfl⟩
  | unbind => cases h; exact ⟨_, _, rfl, rfl⟩
  | search q =>
    simp only [Spec.Wire.asks] at h
    cases hs : Spec.Wire.scopeNumber q.scope with
    | none => rw [hs] at h; cases h
    | some s =>
      rw [hs] at h
      cases h
      refine ⟨str "searchRequest", _, ?_, rfl⟩
      rw [Call.op, searchOp, scope_val, hs, filter_val, octs_utf8]
      rfl
  | compare d a v => cases h; exact ⟨_, _, rfl, rfl⟩
  | add d l =>
    cases h
    refine ⟨str "addRequest", _, ?_, rfl⟩
    rw [Call.op, addOp, attributes_val]; rfl
  | delete d => cases h; exact ⟨_, _, rfl, rfl⟩
  | modDn q =>
    cases h
    refine ⟨str "modDNRequest", _, ?_, rfl⟩
    rw [Call.op, modDnOp]
    cases q.newSuperior <;> rfl
  | modify q =>
    cases h
    refine ⟨str "modifyRequest", _, ?_, rfl⟩
    rw [Call.op, modifyOp, changes_val]; rfl
  | extended o v =>
    cases h
    refine ⟨str "extendedReq", _, ?_, rfl⟩
    rw [Call.op, extendedOp, oidVal, ascii_enc o ha]
    cases v <;> rfl
  | abandon i => cases h; exact ⟨_, _, rfl, rfl⟩

theorem call_inv (c : Call) (x : Str × Val) (h : c.op = some x) : oidsOk c ∧ ∃ o, Spec.Wire.asks c = some o := by
  cases c with
  | search q =>
    refine ⟨trivial, ?_⟩
    rw [Call.op, searchOp, scope_val] at h
    cases hs : Spec.Wire.scopeNumber q.scope with
    | none => rw [hs] at h; cases h
    | some s => exact ⟨_, by simp only [Spec.Wire.asks, hs]; rfl⟩
  | extended o v =>
    refine ⟨?_, _, rfl⟩
    rw [Call.op, extendedOp, oidVal] at h
    show ∀ c ∈ o, c.toNat < 128
    cases hb : Paged.encByte 128 o with
    | none => rw [hb] at h; cases h
    | some b =>
      clear h
      induction o generalizing b with
      | nil => simp
      | cons c s ih =>
        rw [Paged.encByte] at hb
        split at hb
        · rename_i hc
          cases hs : Paged.encByte 128 s with
          | none => rw [hs] at hb; cases hb
          | some b' =>
            intro d hd
            rcases List.mem_cons.1 hd with rfl | hd
            · exact hc
            · exact ih b' hs d hd
        · cases hb
  | _ => exact ⟨trivial, _, rfl⟩

theorem ascii_inv (o : Str) (b : Bytes) (hb : Paged.encByte 128 o = some b) : ∀ c ∈ o, c.toNat < 128 := by
  induction o generalizing b with
  | nil => simp
  | cons c s ih =>
    rw [Paged.encByte] at hb
    split at hb
    · rename_i hc
      cases hs : Paged.encByte 128 s with
      | none => rw [hs] at hb; cases hb
      | some b' =>
        intro d hd
        rcases List.mem_cons.1 hd with rfl | hd
        · exact hc
        · exact ih b' hs d hd
    · cases hb

theorem controls_val (l : List Controls.Wire) :
    (∀ w ∈ l, ∀ c ∈ w.oid, c.toNat < 128) → controlVals l = some (Items.ofList ((l.map Spec.Wire.ofControl).map controlV)) := by
  induction l with
  | nil => intro _; rfl
  | cons w l ih =>
    intro h
    have h1 : controlVal w = some (controlV (Spec.Wire.ofControl w)) := by
      rw [controlVal, oidVal, ascii_enc w.oid (h w (List.mem_cons_self ..))]
      obtain ⟨o, c, v⟩ := w
      cases v <;> rfl
    rw [controlVals, h1, ih (fun w hw => h w (List.mem_cons_of_mem _ hw))]; rfl

theorem controls_inv (l : List Controls.Wire) (vs : Items) (h : controlVals l = some vs) : ∀ w ∈ l, ∀ c ∈ w.oid, c.toNat < 128 := by
  induction l generalizing vs with
  | nil => simp
  | cons w l ih =>
    rw [controlVals] at h
    split at h
    · rename_i v vs' h1 h2
      intro w' hw
      rcases List.mem_cons.1 hw with rfl | hw
      · rw [controlVal, oidVal] at h1
        cases hb : Paged.encByte 128 w'.oid with
        | none => rw [hb] at h1; cases h1
        | some b => exact ascii_inv _ b hb
      · exact ih vs' h2 w' hw
    · cases h

def ctrlsOk (ctrls : Option (List Controls.Wire)) : Prop := ∀ l, ctrls = some l → ∀ w ∈ l, ∀ c ∈ w.oid, c.toNat < 128

/-- what is sent is the encoding of the value that stands for the message -/
theorem send_eq (mid : Int) (c : Call) (ctrls : Option (List Controls.Wire)) (o : Spec.Wire.Op) (h : Spec.Wire.asks c = some o) (ha : oidsOk c) (hc : ctrlsOk ctrls) :
    send mid c.op ctrls = encode filterAlts ldapMessage (messageV (Spec.Wire.message mid o ctrls)) := by
  obtain ⟨n, v, e1, e2⟩ := call_ok c o h ha
  rw [send.eq_def, e1]
  cases ctrls with
  | none => simp only [messageV, Spec.Wire.message, e2]; rfl
  | some l => simp only [controls_val l (hc l rfl), messageV, Spec.Wire.message, e2]; rfl

theorem send_inv (mid : Int) (c : Call) (ctrls : Option (List Controls.Wire)) (bs : Bytes) (h : send mid c.op ctrls = some bs) :
    oidsOk c ∧ ctrlsOk ctrls ∧ ∃ o, Spec.Wire.asks c = some o := by
  unfold send at h
  cases ho : c.op with
  | none => rw [ho] at h; cases h
  | some x =>
    obtain ⟨h1, h2⟩ := call_inv c x ho
    refine ⟨h1, ?_, h2⟩
    intro l e
    subst e
    rw [ho] at h
    simp only at h
    cases hv : controlVals l with
    | none => rw [hv] at h; cases h
    | some vs => exact controls_inv l vs hv

end WireP
open WireP

/-! ## C79 -/

/-- **C79 (what is sent).** If a call writes octets to the socket, they are a BER encoding of the LDAP message with this message ID, the operation that the call stands for with the caller's
arguments, and the controls. All numbers are in range. TRUE is the octet 01; a component that has its default value is left out. -/
theorem c79_sent (mid : Int) (c : Call) (ctrls : Option (List Controls.Wire)) (bs : Bytes) (h : send mid c.op ctrls = some bs) :
    ∃ o, Spec.Wire.asks c = some o ∧ (Spec.Wire.message mid o ctrls).Valid ∧ (Spec.Wire.message mid o ctrls).enc { isTrue := fun b => b = 1, writesDefaults := False } bs ∧
      (Spec.Wire.message mid o ctrls).enc Spec.Wire.x690 bs := by
  obtain ⟨h1, h2, o, h3⟩ := send_inv mid c ctrls bs h
  rw [send_eq mid c ctrls o h3 h1 h2] at h
  have e := encode_ok _ _ _ _ h
  have hv := message_valid _ _ _ e
  refine ⟨o, h3, hv, ?_, ?_⟩
  · rw [← message_enc _ _ hv]; exact e
  · rw [← message_enc _ _ hv]
    exact EncT_mono (U := code) (V := Spec.Wire.x690) _ (fun b hb => by cases hb; show (1 : UInt8) ≠ 0; decide) (fun _ => trivial) (fun h => h) _ _ _ e

/-- **C79 (RFC 4511's restrictions on BER).** Section 5.1 wants TRUE to be the octet FF. What is sent follows this exactly when nothing in the message is TRUE: no critical control,
no `attrs_only`, no DN attribute matching, no removal of the old RDN. -/
theorem c79_strict_partial (mid : Int) (c : Call) (ctrls : Option (List Controls.Wire)) (bs : Bytes) (h : send mid c.op ctrls = some bs) (o : Spec.Wire.Op) (ho : Spec.Wire.asks c = some o) :
    (Spec.Wire.message mid o ctrls).enc Spec.Wire.strict bs ↔ (Spec.Wire.message mid o ctrls).noTrue = true := by
  obtain ⟨h1, h2, _, _⟩ := send_inv mid c ctrls bs h
  rw [send_eq mid c ctrls o ho h1 h2] at h
  have e := encode_ok _ _ _ _ h
  have hv := message_valid _ _ _ e
  rw [← message_enc _ _ hv, ← message_noTrue]
  constructor
  · intro e'
    exact two_rules filterAlts good_filter (U := code) (V := Spec.Wire.strict) (fun b hb => by cases hb; decide) (fun b hb => by cases hb; decide)
      (fun b hb hb' => by cases hb; exact absurd hb' (by show ¬ ((1 : UInt8) = 0xFF); decide)) (by rintro (h | h) <;> exact h) (by rintro (h | h) <;> exact h) _ _ _ good_message e e'
  · intro hn
    exact EncT_noTrue (U := code) (V := Spec.Wire.strict) _ (fun h => h) (fun h => h) _ _ _ hn e

/-- **C79 (what can be sent).** A call whose message is within the ranges of RFC 4511 and has an encoding at all is sent, and no encoding is shorter than the octets sent. (OIDs are ASCII text.) -/
theorem c79_shortest (mid : Int) (c : Call) (ctrls : Option (List Controls.Wire)) (o : Spec.Wire.Op) (ho : Spec.Wire.asks c = some o) (ha : oidsOk c) (hc : ctrlsOk ctrls)
    (hv : (Spec.Wire.message mid o ctrls).Valid) (b : Bytes) (hb : (Spec.Wire.message mid o ctrls).enc Spec.Wire.x690 b) :
    ∃ bs, send mid c.op ctrls = some bs ∧ ∀ b', (Spec.Wire.message mid o ctrls).enc Spec.Wire.x690 b' → bs.length ≤ b'.length := by
  rw [send_eq mid c ctrls o ho ha hc]
  rw [← message_enc _ _ hv] at hb
  obtain ⟨bs, h1, _⟩ := encode_min _ (fun h => h) _ _ _ _ hb
  refine ⟨bs, h1, fun b' hb' => ?_⟩
  rw [← message_enc _ _ hv] at hb'
  obtain ⟨bs', h1', h2⟩ := encode_min _ (fun h => h) _ _ _ _ hb'
  rw [h1] at h1'
  cases h1'
  exact h2

/-- **C79 (out of range).** A search whose size or time limit is above 2147483647 is not sent, nor is any request with a message ID outside 0 .. 2147483647. -/
theorem c79_out_of_range (mid : Int) (c : Call) (ctrls : Option (List Controls.Wire)) :
    (¬ Spec.Wire.Int0Max mid → send mid c.op ctrls = none) ∧
    ∀ q, c = .search q → 2147483647 < q.limit ∨ 2147483647 < q.timeout → send mid c.op ctrls = none := by
  constructor
  · intro hm
    cases h : send mid c.op ctrls with
    | none => rfl
    | some bs =>
      obtain ⟨o, _, hv, _⟩ := c79_sent mid c ctrls bs h
      exact absurd hv.1 hm
  · rintro q rfl hq
    cases h : send mid (Call.search q).op ctrls with
    | none => rfl
    | some bs =>
      obtain ⟨o, ho, hv, _⟩ := c79_sent mid _ ctrls bs h
      simp only [Spec.Wire.asks] at ho
      cases hs : Spec.Wire.scopeNumber q.scope with
      | none => rw [hs] at ho; cases ho
      | some s =>
        rw [hs] at ho
        cases ho
        have := hv.2
        simp only [Spec.Wire.message, Spec.Wire.Op.Valid, Spec.Wire.Int0Max] at this
        omega

namespace WireP
open Received

theorem to_loosely (m : Spec.Wire.Message) (hv : m.Valid) (bs : Bytes) (h : m.enc Spec.Wire.x690 bs) : m.enc Spec.Wire.loosely bs := by
  rw [← message_enc _ _ hv] at h ⊢
  exact EncT_mono (U := Spec.Wire.x690) (V := Spec.Wire.loosely) _ (fun _ h => h) (fun h => h) (fun _ => trivial) _ _ _ h

theorem recv_loosely (m : Spec.Wire.Message) (hv : m.Valid) (bs : Bytes) (h : m.enc Spec.Wire.loosely bs) (rest : Bytes) : recv (bs ++ rest) = .ok (messageV m, rest) := by
  rw [← message_enc _ _ hv] at h
  have := need_le ldapMessage bs
  exact decode_ok filterAlts good_filter _ _ bs rest _ good_message h (by simp only [List.length_append]; omega)

theorem recv_ok (m : Spec.Wire.Message) (hv : m.Valid) (bs : Bytes) (h : m.enc Spec.Wire.x690 bs) (rest : Bytes) : recv (bs ++ rest) = .ok (messageV m, rest) :=
  recv_loosely m hv bs (to_loosely m hv bs h) rest

theorem recv_short (m : Spec.Wire.Message) (hv : m.Valid) (bs : Bytes) (h : m.enc Spec.Wire.x690 bs) (p q : Bytes) (hq : q ≠ []) (e : bs = p ++ q) : recv p = .underrun := by
  obtain ⟨c, _, hc⟩ := h
  rw [recv, berDecode, decode.eq_def]
  simp only [header_short (g := 0x30) (by decide) hc p q hq e]

theorem mid_view (m : Spec.Wire.Message) : messageId (messageV m) = some m.id := rfl

def ctrlV (m : Spec.Wire.Message) : Option Val := m.controls.map controlsV

theorem unpack_view (m : Spec.Wire.Message) (n : Str) (obj : Val) (h : opV m.op = .choice m.op.name obj) :
    unpack n (messageV m) = if m.op.name = n then some (obj, ctrlV m) else none := by
  have h1 : field messageComps (str "protocolOp") (messageV m) = some (opV m.op) := rfl
  have h2 : field messageComps (str "controls") (messageV m) = ctrlV m := by
    rw [messageV, ctrlV]
    cases m.controls <;> rfl
  rw [unpack.eq_def, h1, h2, h]

theorem op_shape (o : Spec.Wire.Op) : ∃ v, opV o = .choice o.name v := by cases o <;> exact ⟨_, rfl⟩

theorem vals_ofList (l : List Val) : Received.Items.vals (Items.ofList l) = l := by
  induction l with
  | nil => rfl
  | cons v l ih => simp [Items.ofList, Received.Items.vals, ih]

theorem decByte_utf8 (s : Str) (h : ∀ c ∈ s, c.toNat < 128) : Paged.decByte 128 (utf8Enc s) = some s :=
  PagedP.decByte_enc 128 (by decide) s _ (ascii_enc s h)

theorem read_control (w : Controls.Wire) (h : Spec.Wire.PlainControl w) : readControl (controlV (Spec.Wire.ofControl w)) = some w := by
  obtain ⟨o, c, v⟩ := w
  have h1 : field controlComps (str "controlType") (controlV (Spec.Wire.ofControl ⟨o, c, v⟩)) = some (.octets (utf8Enc o)) := rfl
  have h2 : field controlComps (str "criticality") (controlV (Spec.Wire.ofControl ⟨o, c, v⟩)) = some (.bool c) := rfl
  rw [readControl.eq_def, h1, h2]
  simp only [decByte_utf8 o h.1]
  cases v with
  | none => rfl
  | some v =>
    have h3 : field controlComps (str "controlValue") (controlV (Spec.Wire.ofControl ⟨o, c, some v⟩)) = some (.octets (v.map byte)) := rfl
    rw [h3]
    have : (v.map byte).map (·.toNat) = v := by
      rw [List.map_map]
      conv => rhs; rw [← List.map_id v]
      apply List.map_congr_left
      intro n hn
      exact byte_toNat n (h.2 v rfl n hn)
    simp only [Option.bind_some, octetsOf, Option.map_some, this]

theorem read_controls (ws : List Controls.Wire) (h : ∀ w ∈ ws, Spec.Wire.PlainControl w) : readControls ((ws.map Spec.Wire.ofControl).map controlV) = some ws := by
  induction ws with
  | nil => rfl
  | cons w ws ih =>
    simp only [List.map_cons, readControls, read_control w (h w (List.mem_cons_self ..)), ih (fun w hw => h w (List.mem_cons_of_mem _ hw))]

theorem response_controls (m : Spec.Wire.Message) (ctrls : Option (List Controls.Wire)) (hm : m.controls = ctrls.map (fun l => l.map Spec.Wire.ofControl))
    (h : ∀ l, ctrls = some l → ∀ w ∈ l, Spec.Wire.PlainControl w) : responseControls (ctrlV m) = some (ctrls.getD []) := by
  rw [ctrlV, hm]
  cases ctrls with
  | none => rfl
  | some l =>
    simp only [Option.map_some, responseControls, controlsV, listV, elems, vals_ofList]
    exact read_controls l (h l rfl)

theorem read_texts (l : List Str) : texts ((l.map utf8Enc).map oct) = some l := by
  induction l with
  | nil => rfl
  | cons s l ih =>
    simp only [List.map_cons, texts, ih]
    have : textOf (oct (utf8Enc s)) = some s := utf8_round_trip s
    rw [this]

/-- octets as `seq_to_list` gives them -/
def shown (b : Bytes) : AVal := readVal (.octets b)

theorem shown_ok (b : Bytes) : Spec.Wire.Shows b (shown b) := by
  simp only [shown, readVal, octetsOf]
  cases h : utf8Dec b with
  | some s => exact (utf8_dec_enc b s h).symm
  | none =>
    refine ⟨rfl, fun s e => ?_⟩
    rw [e, utf8_round_trip] at h
    cases h

theorem seq_to_list (l : List Bytes) : seqToList (octs l) = l.map shown := by
  simp only [seqToList, octs, listV, elems, vals_ofList, List.map_map]
  rfl

theorem read_attrs (l : List (Str × List Bytes)) : ∀ d : PDict Str (List AVal),
    readAttrs d ((l.map (fun p => (⟨utf8Enc p.1, p.2⟩ : Spec.Wire.Attr))).map attrV) = some (l.foldl (fun d p => d.set p.1 (p.2.map shown)) d) := by
  induction l with
  | nil => intro d; rfl
  | cons p l ih =>
    intro d
    obtain ⟨n, vs⟩ := p
    have h1 : field attributeComps (str "type") (attrV ⟨utf8Enc n, vs⟩) = some (.octets (utf8Enc n)) := rfl
    have h2 : field attributeComps (str "vals") (attrV ⟨utf8Enc n, vs⟩) = some (octs vs) := rfl
    have h3 : textOf (.octets (utf8Enc n)) = some n := utf8_round_trip n
    simp only [List.map_cons, readAttrs, h1, h2, Option.bind_some, h3, seq_to_list, ih, List.foldl_cons]

theorem foldl_get (f : List Bytes → List AVal) (l : List (Str × List Bytes)) (n : Str) : ∀ d : PDict Str (List AVal),
    (l.foldl (fun d p => d.set p.1 (f p.2)) d).get? n = ((l.reverse.find? (fun p => p.1 = n)).map (fun p => f p.2)).or (d.get? n) := by
  induction l with
  | nil => intro d; simp
  | cons p l ih =>
    intro d
    rw [List.foldl_cons, ih, List.reverse_cons, List.find?_append, PDict.get?_set]
    cases h : l.reverse.find? (fun p => p.1 = n) with
    | some q => simp
    | none =>
      by_cases hp : p.1 = n
      · simp [hp]
      · have hp' : ¬ n = p.1 := fun e => hp e.symm
        simp [hp, hp']

theorem foldl_distinct (f : List Bytes → List AVal) (l : List (Str × List Bytes)) : ∀ d : PDict Str (List AVal), (d.map Prod.fst ++ l.map Prod.fst).Nodup →
    l.foldl (fun d p => d.set p.1 (f p.2)) d = d ++ l.map (fun p => (p.1, f p.2)) := by
  have hset : ∀ (d : PDict Str (List AVal)) k v, k ∉ d.map Prod.fst → d.set k v = d ++ [(k, v)] := by
    intro d k v
    induction d with
    | nil => intro _; rfl
    | cons q d ih =>
      intro h
      simp only [List.map_cons, List.mem_cons, not_or] at h
      obtain ⟨a, w⟩ := q
      rw [PDict.set, if_neg (fun e => h.1 e.symm), ih h.2]; rfl
  induction l with
  | nil => intro d _; simp
  | cons p l ih =>
    intro d h
    have hk : p.1 ∉ d.map Prod.fst := by
      intro hm
      rw [List.nodup_append] at h
      exact h.2.2 p.1 hm p.1 (by simp) rfl
    rw [List.foldl_cons, hset d _ _ hk, ih _ (by simpa using h)]
    simp

end WireP
open WireP Received

/-! ## C80 -/

/-- **C80 (an entry).** Any BER encoding of a search result entry, followed by anything, is read as that entry: its message ID, DN, attributes and response controls; values are shown as text if
they are UTF-8 and as octets otherwise; of an attribute that is there twice the last values are kept. -/
theorem c80_entry (id : Int) (hid : Spec.Wire.Int0Max id) (dn : Str) (attrs : List (Str × List Bytes)) (ctrls : Option (List Controls.Wire))
    (hc : ∀ l, ctrls = some l → ∀ w ∈ l, Spec.Wire.PlainControl w) (bs rest : Bytes)
    (h : Spec.Wire.Message.enc Spec.Wire.x690 (Spec.Wire.message id (.searchResEntry (utf8Enc dn) (attrs.map (fun p => ⟨utf8Enc p.1, p.2⟩))) ctrls) bs) :
    ∃ v, recv (bs ++ rest) = .ok (v, rest) ∧ messageId v = some id ∧ ∃ d, searchMsg v = some (.entry (dn, d) (ctrls.getD [])) ∧
      ∃ shown, (∀ b, Spec.Wire.Shows b (shown b)) ∧ (∀ n, d.get? n = (attrs.reverse.find? (fun p => p.1 = n)).map (fun p => p.2.map shown)) ∧
        ((attrs.map Prod.fst).Nodup → d = attrs.map (fun p => (p.1, p.2.map shown))) := by
  have hv : (Spec.Wire.message id (.searchResEntry (utf8Enc dn) (attrs.map (fun p => ⟨utf8Enc p.1, p.2⟩))) ctrls).Valid := ⟨hid, trivial⟩
  refine ⟨_, recv_ok _ hv bs h rest, rfl, attrs.foldl (fun (d : PDict Str (List AVal)) p => d.set p.1 (p.2.map WireP.shown)) [], ?_, WireP.shown, shown_ok, ?_, ?_⟩
  · have hu := unpack_view (Spec.Wire.message id (.searchResEntry (utf8Enc dn) (attrs.map (fun p => ⟨utf8Enc p.1, p.2⟩))) ctrls) (str "searchResEntry") _ rfl
    rw [if_pos (by show str "searchResEntry" = str "searchResEntry"; rfl)] at hu
    have hr := response_controls (Spec.Wire.message id (.searchResEntry (utf8Enc dn) (attrs.map (fun p => ⟨utf8Enc p.1, p.2⟩))) ctrls) ctrls rfl hc
    have he : readEntry (.seq (.cons (.octets (utf8Enc dn)) (.cons (listV ((attrs.map (fun p => (⟨utf8Enc p.1, p.2⟩ : Spec.Wire.Attr))).map attrV)) .nil))) =
        some (dn, attrs.foldl (fun (d : PDict Str (List AVal)) p => d.set p.1 (p.2.map WireP.shown)) []) := by
      have h1 : ∀ as, field entryComps (str "objectName") (.seq (.cons (.octets (utf8Enc dn)) (.cons as .nil))) = some (.octets (utf8Enc dn)) := fun _ => rfl
      have h2 : ∀ as, field entryComps (str "attributes") (.seq (.cons (.octets (utf8Enc dn)) (.cons as .nil))) = some as := fun _ => rfl
      have h3 : textOf (.octets (utf8Enc dn)) = some dn := utf8_round_trip dn
      simp only [readEntry, h1, h2, Option.bind_some, h3, listV, elems, vals_ofList, read_attrs, Option.map_some]
    rw [searchMsg.eq_def, hu]
    simp only [he, hr]
  · intro n
    rw [foldl_get]
    simp
  · intro hn
    rw [foldl_distinct (fun l => l.map WireP.shown) attrs [] (by simpa using hn)]
    simp

/-- **C80 (the end of a search).** Likewise for the final result: its code, response controls and referral URIs. -/
theorem c80_done (id : Int) (hid : Spec.Wire.Int0Max id) (code : Nat) (matched diag : Bytes) (refs : Option (List Str)) (ctrls : Option (List Controls.Wire))
    (hc : ∀ l, ctrls = some l → ∀ w ∈ l, Spec.Wire.PlainControl w) (bs rest : Bytes)
    (h : Spec.Wire.Message.enc Spec.Wire.x690 (Spec.Wire.message id (.searchResDone ⟨code, matched, diag, refs.map (fun l => l.map utf8Enc)⟩) ctrls) bs) :
    ∃ v, recv (bs ++ rest) = .ok (v, rest) ∧ messageId v = some id ∧ searchMsg v = some (.done code (ctrls.getD []) (refs.getD [])) := by
  have hv : (Spec.Wire.message id (.searchResDone ⟨code, matched, diag, refs.map (fun l => l.map utf8Enc)⟩) ctrls).Valid := ⟨hid, trivial⟩
  refine ⟨_, recv_ok _ hv bs h rest, rfl, ?_⟩
  have hu := fun n => unpack_view (Spec.Wire.message id (.searchResDone ⟨code, matched, diag, refs.map (fun l => l.map utf8Enc)⟩) ctrls) n _ rfl
  have hr := response_controls (Spec.Wire.message id (.searchResDone ⟨code, matched, diag, refs.map (fun l => l.map utf8Enc)⟩) ctrls) ctrls rfl hc
  have u1 := hu (str "searchResEntry")
  rw [if_neg (by show ¬ (str "searchResDone" = str "searchResEntry"); decide)] at u1
  have u2 := hu (str "searchResDone")
  rw [if_pos (by show str "searchResDone" = str "searchResDone"; rfl)] at u2
  rw [searchMsg.eq_def, u1]
  simp only [u2, hr]
  have hcode : resultCode (resultComps .nil) (resultV ⟨code, matched, diag, refs.map (fun l => l.map utf8Enc)⟩ .nil) = some code := by
    show some (codeOf (Int.ofNat code)) = some code
    rfl
  rw [hcode]
  have href : texts (((field (resultComps .nil) (str "referral") (resultV ⟨code, matched, diag, refs.map (fun l => l.map utf8Enc)⟩ .nil)).map elems).getD []) = some (refs.getD []) := by
    cases refs with
    | none => rfl
    | some l =>
      have : field (resultComps .nil) (str "referral") (resultV ⟨code, matched, diag, some (l.map utf8Enc)⟩ .nil) = some (octs (l.map utf8Enc)) := rfl
      rw [Option.map_some, this]
      simp only [Option.map_some, Option.getD_some, octs, listV, elems, vals_ofList]
      exact read_texts l
  rw [href]

/-- **C80 (a continuation reference).** -/
theorem c80_reference (id : Int) (hid : Spec.Wire.Int0Max id) (uris : List Str) (ctrls : Option (List Controls.Wire))
    (hc : ∀ l, ctrls = some l → ∀ w ∈ l, Spec.Wire.PlainControl w) (bs rest : Bytes)
    (h : Spec.Wire.Message.enc Spec.Wire.x690 (Spec.Wire.message id (.searchResRef (uris.map utf8Enc)) ctrls) bs) :
    ∃ v, recv (bs ++ rest) = .ok (v, rest) ∧ messageId v = some id ∧ searchMsg v = some (.ref uris (ctrls.getD [])) := by
  have hv : (Spec.Wire.message id (.searchResRef (uris.map utf8Enc)) ctrls).Valid := ⟨hid, trivial⟩
  refine ⟨_, recv_ok _ hv bs h rest, rfl, ?_⟩
  have hu := fun n => unpack_view (Spec.Wire.message id (.searchResRef (uris.map utf8Enc)) ctrls) n _ rfl
  have hr := response_controls (Spec.Wire.message id (.searchResRef (uris.map utf8Enc)) ctrls) ctrls rfl hc
  have u1 := hu (str "searchResEntry")
  rw [if_neg (by show ¬ (str "searchResRef" = str "searchResEntry"); decide)] at u1
  have u2 := hu (str "searchResDone")
  rw [if_neg (by show ¬ (str "searchResRef" = str "searchResDone"); decide)] at u2
  have u3 := hu (str "searchResRef")
  rw [if_pos (by show str "searchResRef" = str "searchResRef"; rfl)] at u3
  rw [searchMsg.eq_def, u1]
  simp only [u2, u3, hr, octs, listV, elems, vals_ofList, read_texts]

/-- **C80 (any other message for a search)** is seen as an unexpected response. -/
theorem c80_foreign (m : Spec.Wire.Message) (hv : m.Valid) (h1 : m.op.name ≠ str "searchResEntry") (h2 : m.op.name ≠ str "searchResDone") (h3 : m.op.name ≠ str "searchResRef")
    (bs rest : Bytes) (h : m.enc Spec.Wire.x690 bs) :
    ∃ v, recv (bs ++ rest) = .ok (v, rest) ∧ messageId v = some m.id ∧ searchMsg v = some .other := by
  refine ⟨_, recv_ok m hv bs h rest, rfl, ?_⟩
  obtain ⟨v, hs⟩ := op_shape m.op
  have hu := fun n => unpack_view m n v hs
  have u1 := hu (str "searchResEntry")
  rw [if_neg h1] at u1
  have u2 := hu (str "searchResDone")
  rw [if_neg h2] at u2
  have u3 := hu (str "searchResRef")
  rw [if_neg h3] at u3
  rw [searchMsg.eq_def, u1]
  simp only [u2, u3]

/-- **C80 (a response).** The response to a bind, modify, add, delete, modify DN, compare or extended request, in any BER encoding and followed by anything: a caller who waits for this kind of
response gets its result code, which may be one that RFC 4511 does not define, and its response controls. -/
theorem c80_result (m : Spec.Wire.Message) (hv : m.Valid) (r : Spec.Wire.Result) (hr : m.op.result? = some r) (code : Nat) (hcode : r.code = code) (ctrls : Option (List Controls.Wire))
    (hm : m.controls = ctrls.map (fun l => l.map Spec.Wire.ofControl)) (hc : ∀ l, ctrls = some l → ∀ w ∈ l, Spec.Wire.PlainControl w) (bs rest : Bytes) (h : m.enc Spec.Wire.x690 bs) :
    ∃ v, recv (bs ++ rest) = .ok (v, rest) ∧ messageId v = some m.id ∧ readResult m.op.name v = some (some (code, ctrls.getD [])) := by
  refine ⟨_, recv_ok m hv bs h rest, rfl, ?_⟩
  have hb : ∃ more, opV m.op = .choice m.op.name (resultV r more) := by
    cases ho : m.op <;> rw [ho] at hr <;> simp only [Spec.Wire.Op.result?, Option.some.injEq, reduceCtorEq] at hr <;> subst hr <;> exact ⟨_, rfl⟩
  obtain ⟨more, hb⟩ := hb
  have hu := unpack_view m m.op.name _ hb
  rw [if_pos rfl] at hu
  have hx : resultCode (resultComps .nil) (resultV r more) = some code := by
    show some (codeOf r.code) = some code
    rw [hcode]; rfl
  rw [readResult.eq_def, hu]
  simp only [hx, response_controls m ctrls hm hc]

/-- **C80 (another response)** than the one waited for is an `UnexpectedResponseType`. -/
theorem c80_unexpected (m : Spec.Wire.Message) (hv : m.Valid) (n : Str) (hn : n ≠ m.op.name) (bs rest : Bytes) (h : m.enc Spec.Wire.x690 bs) :
    ∃ v, recv (bs ++ rest) = .ok (v, rest) ∧ messageId v = some m.id ∧ readResult n v = some none := by
  refine ⟨_, recv_ok m hv bs h rest, rfl, ?_⟩
  obtain ⟨v, hs⟩ := op_shape m.op
  have hu := unpack_view m n v hs
  rw [if_neg (fun e => hn e.symm)] at hu
  rw [readResult.eq_def, hu]

/-- **C80 (not all there yet).** A part of a message is never taken for one: the reader waits for more. -/
theorem c80_wait (m : Spec.Wire.Message) (hv : m.Valid) (bs p q : Bytes) (h : m.enc Spec.Wire.x690 bs) (hq : q ≠ []) (e : bs = p ++ q) : recv p = .underrun :=
  recv_short m hv bs h p q hq e

namespace WireP

/-- the decoder as the codec of the receiving loop -/
def codec : Net.Codec UInt8 Decoded where
  enc := fun m => m.1.2
  dec := fun raw =>
    match h : recv raw with
    | .ok (v, r) => some (⟨(v, raw.take (raw.length - r.length)), r, by
        obtain ⟨bs, rfl, _⟩ := berDecode_inv _ _ _ _ _ h
        have : (bs ++ r).take ((bs ++ r).length - r.length) = bs := by
          rw [List.length_append, Nat.add_sub_cancel]
          exact List.take_left' rfl
        rw [this]
        exact h⟩, r)
    | .underrun => none
    | .bad => none
  mid := Received.mid
  enc_ne := by
    rintro ⟨⟨v, bs⟩, r, h⟩ e
    obtain ⟨b, h1, h2, _⟩ := berDecode_inv _ _ _ _ _ h
    simp only at e
    rw [e] at h1
    have := congrArg List.length h1
    simp only [List.nil_append, List.length_append] at this
    exact h2 (List.length_eq_zero_iff.1 (by omega))
  dec_enc := by
    rintro ⟨⟨v, bs⟩, r0, h⟩ r
    obtain ⟨b, h1, _, h2, _⟩ := berDecode_inv _ _ _ _ _ h
    have hb : b = bs := List.append_cancel_right h1.symm
    subst hb
    have h3 : recv (b ++ r) = .ok (v, r) := h2 r
    split
    · rename_i v' r' e
      rw [h3] at e
      simp only [Res.ok.injEq, Prod.mk.injEq] at e
      obtain ⟨rfl, rfl⟩ := e
      simp
    · rename_i e; rw [h3] at e; cases e
    · rename_i e; rw [h3] at e; cases e
  dec_short := by
    rintro ⟨⟨v, bs⟩, r0, h⟩ p q hq e
    obtain ⟨b, h1, _, _, h2⟩ := berDecode_inv _ _ _ _ _ h
    have hb : b = bs := List.append_cancel_right h1.symm
    subst hb
    have h3 : recv p = .underrun := h2 p q hq e
    split
    · rename_i e; rw [h3] at e; cases e
    · rfl
    · rfl

/-- the messages with their octets, as the loop sees them -/
def decoded : List (Spec.Wire.Message × Bytes) → List Decoded → Prop
  | [], [] => True
  | (m, b) :: l, d :: ds => d.1 = (messageV m, b) ∧ decoded l ds
  | _, _ => False

theorem decoded_exists (l : List (Spec.Wire.Message × Bytes)) (h : ∀ p ∈ l, p.1.Valid ∧ p.1.enc Spec.Wire.x690 p.2) : ∃ ds, decoded l ds := by
  induction l with
  | nil => exact ⟨[], trivial⟩
  | cons p l ih =>
    obtain ⟨ds, hd⟩ := ih (fun q hq => h q (List.mem_cons_of_mem _ hq))
    obtain ⟨h1, h2⟩ := h p (List.mem_cons_self ..)
    exact ⟨⟨(messageV p.1, p.2), [], recv_ok p.1 h1 p.2 h2 []⟩ :: ds, rfl, hd⟩

theorem decoded_enc (l : List (Spec.Wire.Message × Bytes)) : ∀ ds, decoded l ds → ds.flatMap codec.enc = l.flatMap Prod.snd := by
  induction l with
  | nil => intro ds h; cases ds with | nil => rfl | cons d ds => exact h.elim
  | cons p l ih =>
    intro ds h
    cases ds with
    | nil => exact h.elim
    | cons d ds =>
      simp only [List.flatMap_cons, ih ds h.2]
      show d.1.2 ++ _ = _
      rw [h.1]

theorem decoded_mid (p : Spec.Wire.Message × Bytes) (d : Decoded) (h : d.1 = (messageV p.1, p.2)) : codec.mid d = p.1.id.toNat := by
  show ((messageId d.1.1).getD 0).toNat = _
  rw [h]; rfl

theorem decoded_filter (want : Nat) (l : List (Spec.Wire.Message × Bytes)) (hl : ∀ p ∈ l, p.1.Valid) : ∀ ds, decoded l ds →
    decoded (l.filter (fun p => p.1.id = want)) (sentFor codec ds want) := by
  induction l with
  | nil => intro ds h; cases ds with | nil => exact trivial | cons d ds => exact h.elim
  | cons p l ih =>
    intro ds h
    cases ds with
    | nil => exact h.elim
    | cons d ds =>
      have := ih (fun q hq => hl q (List.mem_cons_of_mem _ hq)) ds h.2
      have hm := decoded_mid p d h.1
      have h0 := (hl p (List.mem_cons_self ..)).1.1
      have he : codec.mid d = want ↔ p.1.id = want := by rw [hm]; omega
      by_cases hw : p.1.id = want
      · simp only [sentFor, List.filter_cons, hw, he.2 hw, decide_true, if_true]
        exact ⟨h.1, this⟩
      · have hw' : ¬ codec.mid d = want := fun e => hw (he.1 e)
        simp only [sentFor, List.filter_cons, hw, hw', decide_false]
        exact this

theorem decoded_views (l : List (Spec.Wire.Message × Bytes)) : ∀ ds, decoded l ds → ds.map (fun d => d.1.1) = l.map (fun p => messageV p.1) := by
  induction l with
  | nil => intro ds h; cases ds with | nil => rfl | cons d ds => exact h.elim
  | cons p l ih =>
    intro ds h
    cases ds with
    | nil => exact h.elim
    | cons d ds => simp only [List.map_cons, ih ds h.2, h.1]

end WireP

/-- **C80 (a stream of messages).** The server sends any messages, each in any BER encoding, with IDs other than 0, and the octets arrive in any chunks. Then asking for the messages with one
ID gives, one after the other, exactly those sent with it: each one is what decoding its octets gives, so the theorems above say how it is seen. -/
theorem c80_stream (sent : List (Spec.Wire.Message × Bytes)) (h : ∀ p ∈ sent, p.1.Valid ∧ p.1.id ≠ 0 ∧ p.1.enc Spec.Wire.x690 p.2) (chunks : List Bytes)
    (hb : chunks.flatten = sent.flatMap Prod.snd) (want : Nat) :
    ∃ outs : List Decoded, nexts codec want outs.length (.top []) (Net.World.init chunks).sock = outs.map .yields ∧
      outs.map (fun d => Res.ok (d.1.1, ([] : Bytes))) = (sent.filter (fun p => p.1.id = (want : Int))).map (fun p => recv p.2) := by
  obtain ⟨ds, hd⟩ := decoded_exists sent (fun p hp => ⟨(h p hp).1, (h p hp).2.2⟩)
  refine ⟨sentFor codec ds want, c23_single_reader codec ds chunks want ?_ ?_, ?_⟩
  · clear hb
    induction sent generalizing ds with
    | nil => cases ds with | nil => simp | cons d ds => exact hd.elim
    | cons p sent ih =>
      cases ds with
      | nil => exact hd.elim
      | cons d ds =>
        intro m hm
        rcases List.mem_cons.1 hm with rfl | hm
        · rw [decoded_mid p _ hd.1]
          obtain ⟨h1, h2, _⟩ := h p (List.mem_cons_self ..)
          have := h1.1.1
          omega
        · exact ih (fun q hq => h q (List.mem_cons_of_mem _ hq)) ds hd.2 m hm
  · rw [hb, decoded_enc sent ds hd]
  · have hf := decoded_filter want sent (fun p hp => (h p hp).1) ds hd
    have hv := decoded_views _ _ hf
    have : ∀ l : List Decoded, l.map (fun d => Res.ok (d.1.1, ([] : Bytes))) = (l.map (fun d => d.1.1)).map (fun v => Res.ok (v, ([] : Bytes))) := by
      intro l; rw [List.map_map]; rfl
    rw [this, hv, List.map_map]
    apply List.map_congr_left
    intro p hp
    have hp' := h p (List.mem_filter.1 hp).1
    have := recv_ok p.1 hp'.1 p.2 hp'.2.2 []
    rw [List.append_nil] at this
    rw [this]; rfl


end Laurelin.Props
