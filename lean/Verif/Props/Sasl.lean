import Verif.Props.WireReads
import Verif.Model.Sasl
import Verif.Spec.Sasl
/-!
# C82 what is exchanged in a SASL bind; C83 the security layer
-/
namespace Laurelin.Props
open Laurelin Codec Asn1 Rfc4511 Wire WireP Sasl Spec.SaslS
namespace SaslP
variable {S : Type}

/-- read from some encoding of the message -/
def ReadFrom (m : Spec.Wire.Message) (v : Val) : Prop := ∃ bs, m.Valid ∧ m.enc Spec.Wire.x690 bs ∧ recv bs = .ok (v, [])

theorem readFrom (m : Spec.Wire.Message) (v : Val) (h : ReadFrom m v) : v = messageV m := by
  obtain ⟨bs, hv, he, hr⟩ := h
  have := recv_ok m hv bs he []
  rw [List.append_nil, hr] at this
  simp only [Res.ok.injEq, Prod.mk.injEq, and_true] at this
  exact this

theorem bind_answer (code : Int) (creds : Option Bytes) (ctrls : Option (List Controls.Wire)) (m : Spec.Wire.Message) (h : IsAnswer code creds ctrls m) :
    bindAnswer (messageV m) = some (code, creds, ctrlV m) := by
  obtain ⟨id, matched, diag, refs, rfl⟩ := h
  have hu := unpack_view (Spec.Wire.message id (.bindResponse ⟨code, matched, diag, refs⟩ creds) ctrls) (str "bindResponse") _ rfl
  rw [if_pos (by show str "bindResponse" = str "bindResponse"; rfl)] at hu
  rw [bindAnswer, hu]
  cases refs <;> cases creds <;> rfl

theorem sasl_call (mech : Str) (r : Option Bytes) : Spec.Wire.asks (.saslBind mech (r.map .raw)) = some (.bindRequest 3 [] (.sasl (utf8Enc mech) r)) := by
  cases r <;> rfl

theorem request_sent (mech : Str) (ctrls : Option (List Controls.Wire)) (hc : ctrlsOk ctrls) (mid : Int) (r : Option Bytes)
    (h : ∃ b, (request mech ctrls mid r).Valid ∧ (request mech ctrls mid r).enc Spec.Wire.x690 b) :
    ∃ b, send mid (saslBindOp mech (r.map .raw)) ctrls = some b ∧ (request mech ctrls mid r).enc Spec.Wire.x690 b := by
  obtain ⟨b, h1, h2⟩ := h
  obtain ⟨b', h3, _⟩ := c79_shortest mid (.saslBind mech (r.map .raw)) ctrls _ (sasl_call mech r) trivial hc h1 b h2
  obtain ⟨o, e1, e2, _, e3⟩ := c79_sent mid (.saslBind mech (r.map .raw)) ctrls b' h3
  rw [sasl_call] at e1
  cases e1
  exact ⟨b', h3, e3⟩

end SaslP
open SaslP
variable {S : Type}

/-! ## C82 -/

/-- **C82 (the exchange).** The server answers the bind requests with challenges and finally success, in any BER encodings; before success no layer is in effect (`wrap` changes nothing).
Then the client sends one request more than there are challenges, with consecutive IDs: the first without credentials, then each with what the mechanism answered to the challenge just received, given
to it exactly as sent (or as nothing, if the server sent none). Then the connection is bound. -/
theorem c82_exchange (m : Mechanism S) (hw : ∀ s b, m.wrap s b = .ok (b, s)) (mech : Str) (ctrls : Option (List Controls.Wire)) (hc : ctrlsOk ctrls)
    (s t : S) (cs rs : List (Option Bytes)) (h : Answers m.process s cs rs t) (mid : Int) (vs : List Val)
    (hv : Spec.Pairwise2 (fun c v => ∃ q ctrls, IsAnswer 14 c ctrls q ∧ ReadFrom q v) cs vs)
    (final : Val) (creds : Option Bytes) (rctrls : Option (List Controls.Wire)) (hf : ∃ q, IsAnswer 0 creds rctrls q ∧ ReadFrom q final)
    (hrc : ∀ l, rctrls = some l → ∀ w ∈ l, Spec.Wire.PlainControl w) (later : List Val) (first : Option Bytes)
    (hs : ∀ q ∈ requests mech ctrls mid (first :: rs), ∃ b, q.Valid ∧ q.enc Spec.Wire.x690 b) :
    let r := exchange m mech ctrls s first mid (vs ++ final :: later)
    Spec.Pairwise2 (fun q b => q.enc Spec.Wire.x690 b) (requests mech ctrls mid (first :: rs)) r.sent ∧ r.state = t ∧ r.next = mid + cs.length + 1 ∧
      ∃ cv, r.ending = .bound cv ∧ Received.responseControls cv = some (rctrls.getD []) := by
  induction h generalizing mid vs first with
  | nil s =>
    cases hv
    obtain ⟨b, hb, he⟩ := request_sent mech ctrls hc mid first (hs _ (List.mem_cons_self ..))
    obtain ⟨q, hq1, hq2⟩ := hf
    have := readFrom q final hq2
    subst this
    have ha := bind_answer _ _ _ _ hq1
    simp only [List.nil_append, exchange, sendWrapped, hb, hw, ha]
    rw [if_neg (by decide), if_pos trivial]
    refine ⟨.cons he .nil, rfl, by simp, _, rfl, ?_⟩
    obtain ⟨id, matched, diag, refs, rfl⟩ := hq1
    exact response_controls _ rctrls rfl hrc
  | cons s s' t c r cs rs hp _ ih =>
    cases hv with
    | cons h1 h2 =>
      rename_i v vs
      obtain ⟨q, qc, hq1, hq2⟩ := h1
      have := readFrom q v hq2
      subst this
      have ha := bind_answer _ _ _ _ hq1
      obtain ⟨b, hb, he⟩ := request_sent mech ctrls hc mid first (hs _ (List.mem_cons_self ..))
      have := ih (mid + 1) vs h2 r (fun q hq => hs q (List.mem_cons_of_mem _ hq))
      simp only at this
      obtain ⟨i1, i2, i3, cv, i4, i5⟩ := this
      simp only [List.cons_append, exchange, sendWrapped, hb, hw, ha, if_true, hp, Run.after]
      refine ⟨.cons he i1, i2, ?_, cv, i4, i5⟩
      rw [i3]
      simp only [List.length_cons]
      omega

/-- **C82 (bound only by success).** However the mechanism and the server behave: if the connection becomes bound, the server's answers were some challenges and then success. -/
theorem c82_only_success (m : Mechanism S) (mech : Str) (ctrls : Option (List Controls.Wire)) (s : S) (r : Option Bytes) (mid : Int) (vs : List Val) (cv : Option Val)
    (h : (exchange m mech ctrls s r mid vs).ending = .bound cv) :
    ∃ pre v post, vs = pre ++ v :: post ∧ (∀ u ∈ pre, ∃ c, (bindAnswer u).map Prod.fst = some 14 ∧ bindAnswer u = some (14, c)) ∧ ∃ creds, bindAnswer v = some (0, creds, cv) := by
  induction vs generalizing s r mid with
  | nil =>
    rw [exchange] at h
    split at h <;> simp at h
  | cons v vs ih =>
    rw [exchange] at h
    split at h
    · simp at h
    · split at h
      · simp at h
      · rename_i code creds cs ha
        split at h
        · rename_i hcode
          split at h
          · simp at h
          · simp only [Run.after] at h
            obtain ⟨pre, v', post, e1, e2, e3⟩ := ih _ _ _ h
            subst hcode
            refine ⟨v :: pre, v', post, by rw [e1]; rfl, ?_, e3⟩
            intro u hu
            rcases List.mem_cons.1 hu with rfl | hu
            · exact ⟨_, by rw [ha]; rfl, ha⟩
            · exact e2 u hu
        · split at h
          · rename_i hz
            simp only [Ending.bound.injEq] at h
            subst hz h
            exact ⟨[], v, vs, rfl, by simp, creds, ha⟩
          · simp at h

/-- **C82, finding.** The mechanism has no say: the connection is bound when the server says so, also if the mechanism is not complete, was never asked, or could not accept the credentials that came with
success – these are not given to it. So a mechanism that authenticates the server does not. -/
theorem c82_unchecked (m : Mechanism S) (mech : Str) (ctrls : Option (List Controls.Wire)) (s s' : S) (r : Option Bytes) (mid : Int) (b w : Bytes)
    (hb : send mid (saslBindOp mech (r.map .raw)) ctrls = some b) (hw : m.wrap s b = .ok (w, s')) (v : Val) (creds : Option Bytes) (rctrls : Option (List Controls.Wire))
    (hv : ∃ q, IsAnswer 0 creds rctrls q ∧ ReadFrom q v) (vs : List Val) :
    ∃ cv, exchange m mech ctrls s r mid (v :: vs) = ⟨[w], .bound cv, s', mid + 1⟩ := by
  obtain ⟨q, hq1, hq2⟩ := hv
  have := readFrom q v hq2
  subst this
  have ha := bind_answer _ _ _ _ hq1
  refine ⟨ctrlV q, ?_⟩
  simp only [exchange, sendWrapped, hb, hw, ha]
  rw [if_neg (by decide), if_pos trivial]

/-- **C82, finding.** Every bind request goes through the mechanism's layer in the state that producing its credentials has led to. If the mechanism considers itself complete then (as puresasl's
GSSAPI does with its last answer) the last request is sent protected, although the server applies the layer only after its success response (RFC 4422 3.7). -/
theorem c82_layer_early (m : Mechanism S) (mech : Str) (ctrls : Option (List Controls.Wire)) (s s1 s2 s3 : S) (r r' : Option Bytes) (mid : Int) (b w b' w' : Bytes)
    (hb : send mid (saslBindOp mech (r.map .raw)) ctrls = some b) (hw : m.wrap s b = .ok (w, s1))
    (v : Val) (c : Option Bytes) (rctrls : Option (List Controls.Wire)) (hv : ∃ q, IsAnswer 14 c rctrls q ∧ ReadFrom q v) (hp : m.process s1 c = .ok (r', s2))
    (hb' : send (mid + 1) (saslBindOp mech (r'.map .raw)) ctrls = some b') (hw' : m.wrap s2 b' = .ok (w', s3)) :
    (exchange m mech ctrls s r mid [v]).sent = [w, w'] := by
  obtain ⟨q, hq1, hq2⟩ := hv
  have := readFrom q v hq2
  subst this
  have ha := bind_answer _ _ _ _ hq1
  simp only [exchange, sendWrapped, hb, hw, ha, if_true, hp, hb', hw', Run.after]

/-- **C82 (failure).** Any other result code ends the bind with an exception, and the mechanism is not asked again; so does another kind of message. -/
theorem c82_failure (m : Mechanism S) (mech : Str) (ctrls : Option (List Controls.Wire)) (s s' : S) (r : Option Bytes) (mid : Int) (b w : Bytes)
    (hb : send mid (saslBindOp mech (r.map .raw)) ctrls = some b) (hw : m.wrap s b = .ok (w, s')) (vs : List Val) :
    (∀ v code creds rctrls q, code ≠ 0 → code ≠ 14 → IsAnswer code creds rctrls q → ReadFrom q v → exchange m mech ctrls s r mid (v :: vs) = ⟨[w], .raised .ldapError, s', mid + 1⟩) ∧
    (∀ v q, q.op.name ≠ str "bindResponse" → ReadFrom q v → exchange m mech ctrls s r mid (v :: vs) = ⟨[w], .raised .unexpectedResponse, s', mid + 1⟩) := by
  constructor
  · intro v code creds rctrls q h0 h14 hq1 hq2
    have := readFrom q v hq2
    subst this
    simp only [exchange, sendWrapped, hb, hw, bind_answer _ _ _ _ hq1, h0, h14, if_false]
  · intro v q hq hr
    have := readFrom q v hr
    subst this
    obtain ⟨o, hs⟩ := op_shape q.op
    have hu := unpack_view q (str "bindResponse") o hs
    rw [if_neg hq] at hu
    have ha : bindAnswer (messageV q) = none := by rw [bindAnswer, hu]
    simp only [exchange, sendWrapped, hb, hw, ha]

/-! ## C83 -/

/-- **C83 (what is written)** under a layer is the mechanism's protection of the encoded message, one message at a time, and nothing else: the four octets of length that RFC 4422 3.7 wants before
each buffer are there only if the library's `wrap` adds them. -/
theorem c83_sent (m : Mechanism S) (s : S) (mid : Int) (c : Call) (ctrls : Option (List Controls.Wire)) (w : Bytes) (s' : S) :
    sendWrapped m s mid c.op ctrls = .ok (w, s') ↔ ∃ b, send mid c.op ctrls = some b ∧ m.wrap s b = .ok (w, s') := by
  rw [sendWrapped]
  cases send mid c.op ctrls <;> simp

/-- **C83 (what is read, if every piece that arrives is one protected buffer).** Then however messages are distributed over the buffers, they are read as without a layer. -/
theorem c83_read_partial (m : Mechanism S) (s : S) (plain pieces : List Bytes) (hb : Buffers m.unwrap s plain pieces)
    (sent : List (Spec.Wire.Message × Bytes)) (h : ∀ p ∈ sent, p.1.Valid ∧ p.1.id ≠ 0 ∧ p.1.enc Spec.Wire.x690 p.2) (hp : plain.flatten = sent.flatMap Prod.snd) (want : Nat) :
    (unwrapped m s pieces).2 = none ∧
    ∃ outs : List Received.Decoded, nexts codec want outs.length (.top []) (Net.World.init (unwrapped m s pieces).1).sock = outs.map .yields ∧
      outs.map (fun d => Res.ok (d.1.1, ([] : Bytes))) = (sent.filter (fun p => p.1.id = (want : Int))).map (fun p => recv p.2) := by
  have hu : unwrapped m s pieces = (plain, none) := by
    clear hp
    induction hb with
    | nil s => rfl
    | cons s t p b ps bs h1 _ ih => simp only [unwrapped, h1, ih]
  rw [hu]
  exact ⟨rfl, c80_stream sent h plain hp want⟩

/-- **C83, finding.** The network may deliver a buffer in parts. A part of a buffer is given to the mechanism by itself; if that cannot unwrap it (any layer that protects integrity), reading ends
with the mechanism's exception, whatever would have come next. -/
theorem c83_cut (m : Mechanism S) (s : S) (plain before : List Bytes) (hb : Buffers m.unwrap s plain before) (part : Bytes) (e : Err) (later : List Bytes)
    (hpart : ∀ t, m.unwrap t part = .error e) : unwrapped m s (before ++ part :: later) = (plain, some e) := by
  induction hb with
  | nil s => simp only [List.nil_append, unwrapped, hpart]
  | cons s t p b ps bs h1 _ ih => simp only [List.cons_append, unwrapped, h1, ih]

namespace SaslP

/-- a mechanism with one answer, `u`, that wants no challenge text; a layer that adds an octet once it is complete -/
def toy (layer : Bool) : Mechanism Bool where
  process := fun s c => if s then .error .saslError else if c.getD [] = [] then .ok (some [0x75], true) else .error .saslError
  wrap := fun s b => .ok (if s ∧ layer then 0xAA :: b else b, s)
  unwrap := fun s b => if layer then (match b with | 0xAA :: p => .ok (p, s) | _ => .error .saslError) else .ok (b, s)
  complete := id

def challenge : Spec.Wire.Message := Spec.Wire.message 1 (.bindResponse ⟨14, [], [], none⟩ none) none
def success : Spec.Wire.Message := Spec.Wire.message 2 (.bindResponse ⟨0, [], [], none⟩ (some [1])) none

theorem toy_challenge : ReadFrom challenge (messageV challenge) := by
  have h := WireR.has_enc challenge [0x30, 12, 2, 1, 1, 0x61, 7, 10, 1, 14, 4, 0, 4, 0] (by decide +kernel)
  exact ⟨_, h.1, h.2, by rfl⟩
theorem toy_success : ReadFrom success (messageV success) := by
  have h := WireR.has_enc success [0x30, 15, 2, 1, 2, 0x61, 10, 10, 1, 0, 4, 0, 4, 0, 0x87, 1, 1] (by decide +kernel)
  exact ⟨_, h.1, h.2, by rfl⟩

/-- the hypotheses of `c82_exchange` are met: one challenge, then success -/
example : (∀ s b, (toy false).wrap s b = .ok (b, s)) ∧ Answers (toy false).process false [none] [some [0x75]] true ∧
    Spec.Pairwise2 (fun c v => ∃ q ctrls, IsAnswer 14 c ctrls q ∧ ReadFrom q v) [none] [messageV challenge] ∧
    (∃ q, IsAnswer 0 (some [1]) none q ∧ ReadFrom q (messageV success)) ∧
    ∀ q ∈ requests (str "PLAIN") none 1 [none, some [0x75]], ∃ b, q.Valid ∧ q.enc Spec.Wire.x690 b := by
  refine ⟨by simp [toy], .cons _ _ _ _ _ _ _ rfl (.nil _), .cons ⟨challenge, none, ⟨_, _, _, _, rfl⟩, toy_challenge⟩ .nil, ⟨success, ⟨_, _, _, _, rfl⟩, toy_success⟩, ?_⟩
  intro q hq
  simp only [requests, List.mem_cons, List.not_mem_nil, or_false] at hq
  rcases hq with rfl | rfl
  · exact ⟨[0x30, 19, 2, 1, 1, 0x60, 14, 2, 1, 3, 4, 0, 0xA3, 7, 4, 5, 0x50, 0x4C, 0x41, 0x49, 0x4E], WireR.has_enc _ _ (by decide +kernel)⟩
  · exact ⟨[0x30, 22, 2, 1, 2, 0x60, 17, 2, 1, 3, 4, 0, 0xA3, 10, 4, 5, 0x50, 0x4C, 0x41, 0x49, 0x4E, 4, 1, 0x75], WireR.has_enc _ _ (by decide +kernel)⟩

/-- with a layer: the second request goes out protected, although the server has not reported success -/
example : (exchange (toy true) (str "PLAIN") none false none 1 [messageV challenge]).sent =
    [[0x30, 19, 2, 1, 1, 0x60, 14, 2, 1, 3, 4, 0, 0xA3, 7, 4, 5, 0x50, 0x4C, 0x41, 0x49, 0x4E],
     [0xAA, 0x30, 22, 2, 1, 2, 0x60, 17, 2, 1, 3, 4, 0, 0xA3, 10, 4, 5, 0x50, 0x4C, 0x41, 0x49, 0x4E, 4, 1, 0x75]] := by decide +kernel

/-- bound at once, and the mechanism is not complete -/
example : (exchange (toy false) (str "PLAIN") none false none 1 [messageV success]).state = false ∧ (toy false).complete false = false ∧
    (match (exchange (toy false) (str "PLAIN") none false none 1 [messageV success]).ending with | .bound _ => true | _ => false) = true := by
  refine ⟨by rfl, rfl, by rfl⟩

example : Buffers (toy true).unwrap true [WireR.doneO.take 3, WireR.doneO.drop 3] [0xAA :: WireR.doneO.take 3, 0xAA :: WireR.doneO.drop 3] :=
  .cons _ _ _ _ _ _ rfl (.cons _ _ _ _ _ _ rfl (.nil _))
example : ∀ t, (toy true).unwrap t (WireR.doneO.drop 3) = .error .saslError := by decide +kernel

end SaslP

end Laurelin.Props
