import Verif.Props.WireReads
import Verif.Lemmas.WireSound
/-!
# C80 whatever is accepted is a message
-/
namespace Laurelin.Props
open Laurelin Codec Asn1 Rfc4511 Wire WireP Received

/-- **C80**. Whatever octets come, if laurelin takes a message out of them, other than a bind request, then there is a message that RFC 4511 allows, which has an encoding, and each of its encodings is
taken for the same; the ID and the kind that laurelin sees are those of this message. In particular every required component is there and every number is in its range.
(rfc4511.py lets a bind request have an authentication choice that RFC 4511 does not.) -/
theorem c80_well_formed (raw rest : Bytes) (v : Val) (hl : raw.length ≤ 256 ^ 8) (h : recv raw = .ok (v, rest)) (hb : unpack (str "bindRequest") v = none) :
    ∃ m : Spec.Wire.Message, m.Valid ∧ (∃ bs, m.enc Spec.Wire.x690 bs) ∧ (∀ bs tail, m.enc Spec.Wire.x690 bs → recv (bs ++ tail) = .ok (v, tail)) ∧
      messageId v = some m.id ∧ (∀ n, unpack n v ≠ none ↔ n = m.op.name) ∧ ∃ taken, raw = taken ++ rest ∧ taken ≠ [] := by
  obtain ⟨m, hm, rfl⟩ := message_of v (decode_typed _ _ _ _ _ _ h) hb
  obtain ⟨e, he, _⟩ := decode_enc filterAlts (by decide +kernel) _ ldapMessage raw _ rest hl (by decide +kernel) h
  obtain ⟨bs, h1, h2, _⟩ := berDecode_inv _ _ _ _ _ h
  refine ⟨m, hm, ⟨e, (WireR.has_enc m e he).2⟩, fun bs tail hbs => recv_ok m hm bs hbs tail, rfl, fun n => ?_, bs, h1, h2⟩
  obtain ⟨obj, ho⟩ := op_shape m.op
  rw [unpack_view m n obj ho]
  split
  · rename_i hn; simp [hn]
  · rename_i hn; simpa using fun h => hn h.symm

/-- **C80 (exactly the messages).** Octets of a sensible number, without a length in the form X.690 reserves, are taken as a message other than a bind request, leaving `rest`, if and only if they are an
encoding of such a message followed by `rest`; encodings are those of X.690, but integers may be longer than needed and booleans may have any number of octets. What laurelin sees is then the same as
for every other encoding of the message. -/
theorem c80_exactly (raw rest : Bytes) (hp : Spec.Wire.Plain raw) (v : Val) (hb : unpack (str "bindRequest") v = none) :
    recv raw = .ok (v, rest) ↔ ∃ (m : Spec.Wire.Message) (bs : Bytes), m.Valid ∧ m.op.name ≠ str "bindRequest" ∧ raw = bs ++ rest ∧ m.enc Spec.Wire.loosely bs ∧
      ∃ bs', m.enc Spec.Wire.x690 bs' ∧ recv bs' = .ok (v, []) := by
  constructor
  · intro h
    obtain ⟨m, hm, rfl⟩ := message_of v (decode_typed _ _ _ _ _ _ h) hb
    obtain ⟨e, he, hE⟩ := decode_sound filterAlts (by decide +kernel) _ ldapMessage (by decide +kernel) raw _ rest hp h
    obtain ⟨e', he', _⟩ := decode_enc filterAlts (by decide +kernel) _ ldapMessage raw _ rest hp.1 (by decide +kernel) h
    have hx := (WireR.has_enc m e' he').2
    refine ⟨m, e, hm, fun h => ?_, he, ?_, e', hx, by simpa using recv_ok m hm e' hx []⟩
    · obtain ⟨obj, ho⟩ := op_shape m.op
      rw [unpack_view m _ obj ho, if_pos h] at hb
      cases hb
    · rw [← message_enc _ _ hm]; exact hE
  · rintro ⟨m, bs, hm, _, rfl, hE, bs', hx, hr⟩
    have h1 := recv_ok m hm bs' hx []
    rw [List.append_nil, hr] at h1
    cases h1
    exact recv_loosely m hm bs hE rest

/-- both directions have cases: an ID in two octets, followed by another octet -/
example : Spec.Wire.Plain [0x30, 13, 2, 2, 0, 3, 0x65, 7, 10, 1, 0, 4, 0, 4, 0, 0x30] ∧ ∃ v, unpack (str "bindRequest") v = none ∧
    recv [0x30, 13, 2, 2, 0, 3, 0x65, 7, 10, 1, 0, 4, 0, 4, 0, 0x30] = .ok (v, [0x30]) := by
  refine ⟨⟨by decide, fun p q e => ?_⟩, messageV ⟨3, .searchResDone ⟨0, [], [], none⟩, none⟩, rfl, rfl⟩
  have := congrArg List.length e
  simp only [List.length_append, List.length_cons, List.length_replicate, List.length_nil] at this
  omega

/-- **C80**: a result without its diagnostic message, a message ID below zero, an INTEGER for a string: no message. -/
theorem c80_malformed : recv [0x30, 10, 2, 1, 3, 0x65, 5, 10, 1, 0, 4, 0] = .bad ∧ recv [0x30, 12, 2, 1, 0x83, 0x65, 7, 10, 1, 0, 4, 0, 4, 0] = .bad ∧
    recv [0x30, 12, 2, 1, 3, 0x65, 7, 10, 1, 0, 2, 0, 4, 0] = .bad := by
  refine ⟨?_, ?_, ?_⟩ <;> rfl

/-- what is not quite an encoding is taken too: an ID in two octets, a BOOLEAN without contents -/
example : recv [0x30, 23, 2, 2, 0, 3, 0x65, 7, 10, 1, 0, 4, 0, 4, 0, 0xA0, 8, 0x30, 6, 4, 2, 0x31, 0x2E, 1, 0] =
    .ok (messageV ⟨3, .searchResDone ⟨0, [], [], none⟩, some [⟨[0x31, 0x2E], false, none⟩]⟩, []) := by rfl

end Laurelin.Props
