import Verif.Model.Asn1
import Verif.Spec.Rfc4511
import Verif.Props.PagedResults
/-! Lemmas: what the typed encoder writes is a BER encoding, and the typed decoder reads any BER encoding. -/
namespace Laurelin
namespace Asn1
open Codec Spec.Wire Spec.PagedS

mutual
/-- the encodings of a value of a type, with the combinators of the specification -/
def EncT (U : Rules) (R : Alts) : Ty → Val → Enc
  | t, .octets b => fun bs => ∃ g, t = .octets g ∧ Spec.Wire.tlv g (Spec.Wire.octets b) bs
  | t, .int z => fun bs => ∃ g r, t = .int g r ∧ inRange z r = true ∧ Spec.Wire.tlv g (integer U z) bs
  | t, .bool b => fun bs => ∃ g, t = .bool g ∧ Spec.Wire.tlv g (boolean U b) bs
  | t, .null => fun bs => ∃ g, t = .null g ∧ Spec.Wire.tlv g nothing bs
  | t, .seq fs => fun bs => ∃ g comps, t = .seq g comps ∧ Spec.Wire.tlv g (EncC U R comps fs) bs
  | t, .list vs => fun bs => ∃ g e, t = .list g e ∧ Spec.Wire.tlv g (EncL U R e vs) bs
  | t, .choice n v => fun bs => (∃ g inner, t = .wrapped g n inner ∧ Spec.Wire.tlv g (EncT U R inner v) bs) ∨
      ∃ alts t', t.alts? R = some alts ∧ alts.byName n = some t' ∧ EncT U R t' v bs
def EncL (U : Rules) (R : Alts) : Ty → Items → Enc
  | _, .nil => nothing
  | _, .absent _ => fun _ => False
  | e, .cons v r => fun c => ∃ a b, c = a ++ b ∧ EncT U R e v a ∧ EncL U R e r b
def EncC (U : Rules) (R : Alts) : Comps → Items → Enc
  | .nil, .nil => nothing
  | .cons _ k _ cs, .absent r => fun c => k = .optional ∧ EncC U R cs r c
  | .cons _ k t cs, .cons v r => fun c => ∃ a b, c = a ++ b ∧
      ((k = .defaultFalse ∧ v = .bool false ∧ a = []) ∨ ((k = .defaultFalse → v = .bool false → U.writesDefaults) ∧ EncT U R t v a)) ∧ EncC U R cs r b
  | _, _ => fun _ => False
end

/-! ## Integers -/

theorem digits_head (f : Nat) : ∀ (n : Nat) (acc : Bytes), n ≤ f → n ≠ 0 → ∃ b r, Ber.digits f n acc = b :: r ∧ b.toNat ≠ 0 := by
  induction f with
  | zero => intro n _ h h0; omega
  | succ f ih =>
    intro n acc h h0
    rw [Ber.digits, if_neg h0]
    by_cases h1 : n / 256 = 0
    · rw [h1]
      have : Ber.digits f 0 (byte (n % 256) :: acc) = byte (n % 256) :: acc := by cases f <;> simp [Ber.digits]
      refine ⟨_, _, this, ?_⟩
      rw [byte_toNat _ (by omega)]
      omega
    · exact ih _ _ (by omega) h1

theorem intBytes_shape (n : Nat) : ∃ b r, Ber.intBytes n = b :: r ∧ b.toNat < 128 ∧ ∀ c s, r = c :: s → b.toNat = 0 → 128 ≤ c.toNat := by
  unfold Ber.intBytes
  by_cases h0 : n = 0
  · subst h0
    exact ⟨0, [], rfl, by decide, nofun⟩
  · obtain ⟨b, r, h1, h2⟩ := digits_head n n [] (Nat.le_refl _) h0
    have h1' : Ber.natBytes n = b :: r := h1
    rw [h1']
    simp only
    split
    · rename_i h
      exact ⟨b, r, rfl, h, fun _ _ _ h3 => absurd h3 h2⟩
    · rename_i h
      refine ⟨0, b :: r, rfl, by decide, ?_⟩
      intro c s e _
      cases e
      omega

theorem beNat_cons (b : UInt8) (bs : Bytes) : Ber.beNat (b :: bs) = b.toNat * 256 ^ bs.length + Ber.beNat bs := by
  rw [← List.singleton_append, Props.PagedP.beNat_append]; simp [Ber.beNat]

theorem flip_toNat (b : UInt8) : (255 - b).toNat = 255 - b.toNat := by
  have h : b.toNat < 256 := b.toNat_lt
  rw [UInt8.toNat_sub_of_le]
  · rfl
  · rw [UInt8.le_iff_toNat_le]; simp; omega

theorem beNat_flip (bs : Bytes) : Ber.beNat (bs.map (fun b => 255 - b)) + Ber.beNat bs + 1 = 256 ^ bs.length := by
  induction bs with
  | nil => rfl
  | cons b bs ih =>
    rw [List.map_cons, beNat_cons, beNat_cons, flip_toNat, List.length_map, List.length_cons]
    have h : b.toNat < 256 := b.toNat_lt
    have e : (255 - b.toNat) * 256 ^ bs.length + b.toNat * 256 ^ bs.length = 255 * 256 ^ bs.length := by
      rw [← Nat.add_mul]; congr 1; omega
    rw [Nat.pow_succ]
    omega

theorem zBytes_ok (U : Rules) (z : Int) : integer U z (zBytes z) := by
  refine .inl ?_
  cases z with
  | ofNat n =>
    refine ⟨Props.PagedP.intBytes_ok n, ?_⟩
    obtain ⟨b, r, h1, h2, h3⟩ := intBytes_shape n
    intro a c s e
    simp only [zBytes, h1, List.cons.injEq] at e
    obtain ⟨rfl, rfl⟩ := e
    refine ⟨fun ⟨h4, h5⟩ => ?_, fun ⟨h4, _⟩ => ?_⟩
    · have := h3 c s rfl (by rw [h4]; rfl)
      omega
    · rw [h4] at h2; exact absurd h2 (by decide)
  | negSucc n =>
    obtain ⟨b, r, h1, h2, h3⟩ := intBytes_shape n
    have hv := Props.PagedP.intOf_ok (Props.PagedP.intBytes_ok n)
    rw [h1] at hv
    simp only [Ber.intOf, h2, if_true] at hv
    have hn : Ber.beNat (b :: r) = n := Int.ofNat.inj hv
    have hf := beNat_flip (b :: r)
    simp only [zBytes, h1]
    constructor
    · refine ⟨255 - b, r.map (fun b => 255 - b), _, rfl, Props.PagedP.beNat_unsigned _, ?_⟩
      have h4 : ¬ (255 - b).toNat < 128 := by rw [flip_toNat]; omega
      rw [if_neg h4]
      rw [hn] at hf
      simp only [List.map_cons, List.length_cons, List.length_map] at hf ⊢
      rw [Int.negSucc_eq]
      have : ((256 ^ (r.length + 1) : Nat) : Int) = (256 : Int) ^ (r.length + 1) := by simp
      rw [← this]
      omega
    · intro a c s e
      simp only [List.map_cons, List.cons.injEq] at e
      obtain ⟨rfl, e⟩ := e
      cases r with
      | nil => cases e
      | cons d r =>
        simp only [List.map_cons, List.cons.injEq] at e
        obtain ⟨rfl, rfl⟩ := e
        have hd : d.toNat < 256 := d.toNat_lt
        refine ⟨fun ⟨h4, _⟩ => ?_, fun ⟨h4, h5⟩ => ?_⟩
        · have := congrArg UInt8.toNat h4
          rw [flip_toNat] at this
          have e0 : (0 : UInt8).toNat = 0 := rfl
          omega
        · have := congrArg UInt8.toNat h4
          rw [flip_toNat] at this
          rw [flip_toNat] at h5
          have e0 : (255 : UInt8).toNat = 255 := rfl
          have := h3 d r rfl (by omega)
          omega

theorem beNat_zero (c : Bytes) : Ber.beNat c = 0 ↔ ∀ o ∈ c, o = 0 := by
  induction c with
  | nil => simp [Ber.beNat]
  | cons b c ih =>
    rw [beNat_cons, List.forall_mem_cons, ← ih]
    have h := Nat.pow_pos (a := 256) (n := c.length) (by decide)
    constructor
    · intro h'
      have h1 : b.toNat * 256 ^ c.length = 0 := by omega
      rcases Nat.mul_eq_zero.1 h1 with h2 | h2
      · exact ⟨UInt8.toNat_inj.1 h2, by omega⟩
      · omega
    · rintro ⟨rfl, h'⟩
      rw [h']; simp

theorem beNat_lt (c : Bytes) : Ber.beNat c < 256 ^ c.length := by
  have := beNat_flip c
  omega

theorem intOf_zero (c : Bytes) : Ber.intOf c = 0 ↔ ∀ o ∈ c, o = 0 := by
  cases c with
  | nil => simp [Ber.intOf]
  | cons b c =>
    rw [← beNat_zero]
    simp only [Ber.intOf]
    split
    · simp
    · rename_i h
      have h1 := beNat_lt (b :: c)
      simp only [List.length_cons] at h1
      have h2 : Ber.beNat (b :: c) ≠ 0 := by
        intro h3
        have := (beNat_zero _).1 h3 b (by simp)
        rw [this] at h
        exact h (by decide)
      constructor
      · intro h3
        have : (Ber.beNat (b :: c) : Int) = ((256 ^ (c.length + 1) : Nat) : Int) := by
          have := Int.sub_eq_zero.1 h3
          exact this
        omega
      · intro h3; exact absurd h3 h2

theorem integer_loosely (z : Int) (c : Bytes) : integer loosely z c ↔ Ber.intOf c = z := by
  constructor
  · rintro (h | ⟨_, h | ⟨rfl, rfl⟩⟩)
    · exact Props.PagedP.intOf_ok h.1
    · exact Props.PagedP.intOf_ok h
    · rfl
  · rintro rfl
    refine .inr ⟨trivial, ?_⟩
    cases c with
    | nil => exact .inr ⟨rfl, rfl⟩
    | cons b c =>
      refine .inl ⟨b, c, Ber.beNat (b :: c), rfl, Props.PagedP.beNat_unsigned _, ?_⟩
      simp [Ber.intOf]

theorem boolean_loosely (b : Bool) (c : Bytes) : boolean loosely b c ↔ (Ber.intOf c != 0) = b := by
  have hz := intOf_zero c
  have key : (b = true ↔ ∃ o ∈ c, o ≠ 0) ↔ (Ber.intOf c != 0) = b := by
    have h1 : (∃ o ∈ c, o ≠ 0) ↔ Ber.intOf c ≠ 0 := by
      rw [ne_eq, hz]
      simp
    rw [h1, ← bne_iff_ne]
    cases b <;> simp
  rw [← key]
  constructor
  · rintro (⟨o, rfl, h⟩ | ⟨_, h⟩)
    · cases b
      · simp only [Bool.false_eq_true, if_false] at h
        simp [h]
      · have : o ≠ 0 := h
        simp [this]
    · exact h
  · intro h; exact .inr ⟨trivial, h⟩

/-! ## The encoder -/

/-- what pyasn1's BER encoder writes: 1 for TRUE, no defaults -/
def code : Rules := { isTrue := fun b => b = 1, writesDefaults := False }

theorem tlv_enc {g : UInt8} {c bs : Bytes} {E : Enc} (hE : E c) (h : Ber.tlv g c = some bs) : Spec.Wire.tlv g E bs :=
  ⟨c, hE, Props.PagedP.tlv_ok h⟩

mutual
theorem encode_ok (R : Alts) : ∀ (v : Val) (t : Ty) (bs : Bytes), encode R t v = some bs → EncT code R t v bs
  | .octets b, t, bs => by
    intro h
    cases t <;> simp only [encode] at h <;> try cases h
    exact ⟨_, rfl, tlv_enc rfl h⟩
  | .int z, t, bs => by
    intro h
    cases t <;> simp only [encode] at h <;> try cases h
    split at h
    · rename_i hr
      exact ⟨_, _, rfl, hr, tlv_enc (zBytes_ok _ z) h⟩
    · cases h
  | .bool b, t, bs => by
    intro h
    cases t <;> simp only [encode] at h <;> try (cases h; done)
    refine ⟨_, rfl, tlv_enc (.inl ⟨_, rfl, ?_⟩) h⟩
    cases b <;> simp [code]
  | .null, t, bs => by
    intro h
    cases t <;> simp only [encode] at h <;> try (cases h; done)
    exact ⟨_, rfl, tlv_enc rfl h⟩
  | .seq fs, t, bs => by
    intro h
    cases t <;> simp only [encode] at h <;> try cases h
    split at h
    · rename_i c hc
      exact ⟨_, _, rfl, tlv_enc (encodeComps_ok R fs _ c hc) h⟩
    · cases h
  | .list vs, t, bs => by
    intro h
    cases t <;> simp only [encode] at h <;> try cases h
    split at h
    · rename_i c hc
      exact ⟨_, _, rfl, tlv_enc (encodeList_ok R vs _ c hc) h⟩
    · cases h
  | .choice n v, t, bs => by
    intro h
    have key : ∀ alts, t.alts? R = some alts → (match alts.byName n with | some t' => encode R t' v | none => none) = some bs → EncT code R t (.choice n v) bs := by
      intro alts h1 h2
      split at h2
      · rename_i t' ht
        exact Or.inr ⟨alts, t', h1, ht, encode_ok R v t' bs h2⟩
      · cases h2
    cases t <;> simp only [encode] at h <;> try (simp only [Ty.alts?] at h; cases h; done)
    · exact key _ rfl h
    · split at h
      · rename_i hn
        subst hn
        split at h
        · rename_i c hc
          exact Or.inl ⟨_, _, rfl, tlv_enc (encode_ok R v _ c hc) h⟩
        · cases h
      · cases h
    · exact key _ rfl h
theorem encodeList_ok (R : Alts) : ∀ (vs : Items) (e : Ty) (c : Bytes), encodeList R e vs = some c → EncL code R e vs c
  | .nil, e, c => by
    intro h
    simp only [encodeList, Option.some.injEq] at h
    exact h.symm
  | .absent r, e, c => by
    intro h
    simp only [encodeList] at h
    cases h
  | .cons v r, e, c => by
    intro h
    simp only [encodeList] at h
    split at h
    · rename_i a b h1 h2
      cases h
      exact ⟨a, b, rfl, encode_ok R v e a h1, encodeList_ok R r e b h2⟩
    · cases h
theorem encodeComps_ok (R : Alts) : ∀ (fs : Items) (cs : Comps) (c : Bytes), encodeComps R cs fs = some c → EncC code R cs fs c
  | .nil, cs, c => by
    intro h
    cases cs <;> simp only [encodeComps] at h
    · cases h; exact (rfl : ([] : Bytes) = [])
    · cases h
  | .absent r, cs, c => by
    intro h
    cases cs <;> simp only [encodeComps] at h
    · cases h
    · split at h
      · rename_i hk
        exact ⟨hk, encodeComps_ok R r _ c h⟩
      · cases h
  | .cons v r, cs, c => by
    intro h
    cases cs with
    | nil => simp only [encodeComps] at h; cases h
    | cons n k t cs =>
      simp only [encodeComps] at h
      have hf : v.isFalse = true ↔ v = .bool false := by cases v <;> simp [Val.isFalse]
      by_cases hd : k = .defaultFalse ∧ v.isFalse = true
      · rw [if_pos hd] at h
        cases h2 : encodeComps R cs r with
        | none => rw [h2] at h; cases h
        | some b =>
          rw [h2] at h
          cases h
          exact ⟨[], b, rfl, Or.inl ⟨hd.1, hf.1 hd.2, rfl⟩, encodeComps_ok R r cs b h2⟩
      · rw [if_neg hd] at h
        split at h
        · rename_i a b h1 h2
          cases h
          exact ⟨a, b, rfl, Or.inr ⟨fun hk hv => absurd ⟨hk, hf.2 hv⟩ hd, encode_ok R v t a h1⟩, encodeComps_ok R r cs b h2⟩
        · cases h
end

/-! ## More permissive rules -/

theorem tlv_mono {g : UInt8} {E F : Enc} (h : ∀ c, E c → F c) {bs : Bytes} : Spec.Wire.tlv g E bs → Spec.Wire.tlv g F bs :=
  fun ⟨c, h1, h2⟩ => ⟨c, h c h1, h2⟩

theorem boolean_mono {U V : Rules} (h1 : ∀ b, U.isTrue b → V.isTrue b) (hL : U.loose → V.loose) (b : Bool) (c : Bytes) : boolean U b c → boolean V b c := by
  rintro (⟨o, rfl, h⟩ | ⟨h, h'⟩)
  · refine .inl ⟨o, rfl, ?_⟩
    cases b
    · exact h
    · exact h1 _ h
  · exact .inr ⟨hL h, h'⟩

theorem integer_mono {U V : Rules} (hL : U.loose → V.loose) (z : Int) (c : Bytes) : integer U z c → integer V z c := by
  rintro (h | ⟨h, h'⟩)
  · exact .inl h
  · exact .inr ⟨hL h, h'⟩

mutual
theorem EncT_mono {U V : Rules} (R : Alts) (h1 : ∀ b, U.isTrue b → V.isTrue b) (h2 : U.writesDefaults → V.writesDefaults) (hL : U.loose → V.loose) :
    ∀ (v : Val) (t : Ty) (bs : Bytes), EncT U R t v bs → EncT V R t v bs
  | .octets b, t, bs => id
  | .int z, t, bs => fun ⟨g, r, e, e', h⟩ => ⟨g, r, e, e', tlv_mono (integer_mono hL z) h⟩
  | .bool b, t, bs => fun ⟨g, e, h⟩ => ⟨g, e, tlv_mono (boolean_mono h1 hL b) h⟩
  | .null, t, bs => id
  | .seq fs, t, bs => fun ⟨g, cs, e, h⟩ => ⟨g, cs, e, tlv_mono (EncC_mono R h1 h2 hL fs cs) h⟩
  | .list vs, t, bs => fun ⟨g, e, e', h⟩ => ⟨g, e, e', tlv_mono (EncL_mono R h1 h2 hL vs e) h⟩
  | .choice n v, t, bs => by
    rintro (⟨g, i, e, h⟩ | ⟨alts, t', e1, e2, h⟩)
    · exact Or.inl ⟨g, i, e, tlv_mono (EncT_mono R h1 h2 hL v i) h⟩
    · exact Or.inr ⟨alts, t', e1, e2, EncT_mono R h1 h2 hL v t' bs h⟩
theorem EncL_mono {U V : Rules} (R : Alts) (h1 : ∀ b, U.isTrue b → V.isTrue b) (h2 : U.writesDefaults → V.writesDefaults) (hL : U.loose → V.loose) :
    ∀ (vs : Items) (e : Ty) (c : Bytes), EncL U R e vs c → EncL V R e vs c
  | .nil, e, c => by simp only [EncL]; exact id
  | .absent _, e, c => by simp only [EncL]; exact id
  | .cons v vs, e, c => fun ⟨a, b, e1, h3, h4⟩ => ⟨a, b, e1, EncT_mono R h1 h2 hL v e a h3, EncL_mono R h1 h2 hL vs e b h4⟩
theorem EncC_mono {U V : Rules} (R : Alts) (h1 : ∀ b, U.isTrue b → V.isTrue b) (h2 : U.writesDefaults → V.writesDefaults) (hL : U.loose → V.loose) :
    ∀ (fs : Items) (cs : Comps) (c : Bytes), EncC U R cs fs c → EncC V R cs fs c
  | .nil, cs, c => by cases cs <;> simp only [EncC] <;> exact id
  | .absent r, cs, c => by
    cases cs with
    | nil => simp only [EncC]; exact id
    | cons n k t cs => exact fun ⟨hk, h⟩ => ⟨hk, EncC_mono R h1 h2 hL r cs c h⟩
  | .cons v r, cs, c => by
    cases cs with
    | nil => simp only [EncC]; exact id
    | cons n k t cs =>
      rintro ⟨a, b, e, h, h'⟩
      refine ⟨a, b, e, ?_, EncC_mono R h1 h2 hL r cs b h'⟩
      rcases h with h | ⟨h3, h4⟩
      · exact Or.inl h
      · exact Or.inr ⟨fun x y => h2 (h3 x y), EncT_mono R h1 h2 hL v t a h4⟩
end

/-! ## The decoder -/

theorem length_ok {n : Nat} {l : Bytes} (h : IsLen n l) (r : Bytes) : length (l ++ r) = .ok (n, r) := by
  cases h with
  | short b hb => simp [length, hb]
  | @long _ bs b h1 h2 h3 h4 =>
    have : 0 < bs.length := List.length_pos_iff.2 h1
    have e : b.toNat - 128 = bs.length := by omega
    have h5 : ¬ b.toNat < 128 := by omega
    have h6 : ¬ b.toNat = 128 := by omega
    simp only [length, List.cons_append, h5, h6, if_false, e]
    rw [if_neg (by simp)]
    simp [Props.PagedP.unsigned_beNat _ _ h4]

theorem header_ok {g : UInt8} (hg : g.toNat % 32 ≠ 31) {c bs : Bytes} (h : IsTlv g c bs) (r : Bytes) : header (bs ++ r) = .ok (g, c, r) := by
  obtain ⟨l, hl, rfl⟩ := h
  have : length (l ++ (c ++ r)) = .ok (c.length, c ++ r) := length_ok hl _
  simp [header, hg, this]

/-- what has to be there: every strict prefix is too short -/
theorem header_short {g : UInt8} (hg : g.toNat % 32 ≠ 31) {c bs : Bytes} (h : IsTlv g c bs) (p q : Bytes) (hq : q ≠ []) (e : bs = p ++ q) : header p = .underrun := by
  obtain ⟨l, hl, rfl⟩ := h
  cases p with
  | nil => rfl
  | cons a p =>
    simp only [List.cons_append, List.nil_append, List.cons.injEq] at e
    obtain ⟨rfl, e⟩ := e
    rw [header, if_neg hg]
    have hq' : 0 < q.length := List.length_pos_iff.2 hq
    have hlen := congrArg List.length e
    simp only [List.length_append] at hlen
    generalize hn : c.length = n at hl hlen
    cases hl with
    | short b hb =>
      cases p with
      | nil => rfl
      | cons d p =>
        simp only [List.cons_append, List.cons.injEq] at e
        obtain ⟨rfl, e⟩ := e
        simp only [length, hb, if_true]
        simp only [List.length_cons, List.length_nil] at hlen
        rw [if_pos (by omega)]
    | @long _ ls b h1 h2 h3 h4 =>
      cases p with
      | nil => rfl
      | cons d p =>
        simp only [List.cons_append, List.cons.injEq] at e
        obtain ⟨rfl, e⟩ := e
        have h0 : 0 < ls.length := List.length_pos_iff.2 h1
        have e8 : b.toNat - 128 = ls.length := by omega
        have h5 : ¬ b.toNat < 128 := by omega
        have h6 : ¬ b.toNat = 128 := by omega
        simp only [length, h5, h6, if_false, e8]
        simp only [List.length_cons] at hlen
        by_cases h7 : p.length < ls.length
        · simp [h7]
        · simp only [h7, if_false]
          have e9 : p.take ls.length = ls := by
            have := congrArg (List.take ls.length) e
            rw [List.take_left, List.take_append_of_le_length (by omega)] at this
            exact this.symm
          rw [e9, ← Props.PagedP.unsigned_beNat _ _ h4, if_pos]
          simp only [List.length_drop]
          omega

/-- identifier octets an element of the type may begin with -/
def Alts.tags : Alts → List UInt8
  | .nil => []
  | .cons _ t r => (t.tag?).toList ++ r.tags

def Ty.firsts (R : Alts) (t : Ty) : List UInt8 :=
  match t.alts? R with
  | some a => a.tags
  | none => t.tag?.toList

def Comps.firsts (R : Alts) : Comps → List UInt8
  | .nil => []
  | .cons _ k t cs => t.firsts R ++ (if k = .required then [] else cs.firsts R)

theorem byTag_isSome (g : UInt8) (a : Alts) : (a.byTag g).isSome = true ↔ g ∈ a.tags := by
  match a with
  | .nil => simp [Alts.byTag, Alts.tags]
  | .cons n t r =>
    simp only [Alts.byTag, Alts.tags, List.mem_append, Option.mem_toList]
    split
    · rename_i h; simp [h]
    · rename_i h
      rw [byTag_isSome g r]
      constructor
      · exact Or.inr
      · intro h'
        rcases h' with h' | h'
        · exact absurd h' h
        · exact h'

theorem accepts_iff (R : Alts) (t : Ty) (g : UInt8) : t.accepts R g = true ↔ g ∈ t.firsts R := by
  unfold Ty.accepts Ty.firsts
  cases t.alts? R with
  | some a => exact byTag_isSome g a
  | none => simp

def okTag (g : UInt8) : Bool := decide (g.toNat % 32 ≠ 31)

mutual
/-- the declarations are unambiguous -/
def Ty.good (R : Alts) : Ty → Bool
  | .octets g => okTag g
  | .int g _ => okTag g
  | .bool g => okTag g
  | .null g => okTag g
  | .seq g cs => okTag g && Comps.good R cs
  | .list g e => okTag g && Ty.good R e
  | .choice a => Alts.good R a
  | .wrapped g _ t => okTag g && Ty.good R t
  | .self => true
def Comps.good (R : Alts) : Comps → Bool
  | .nil => true
  | .cons _ k t cs => Ty.good R t && Comps.good R cs && (decide (k = .required) || (t.firsts R).all (fun g => !(cs.firsts R).contains g))
def Alts.good (R : Alts) : Alts → Bool
  | .nil => true
  | .cons _ t r => Ty.good R t && Alts.good R r && (match t.tag? with | some g => !r.tags.contains g | none => false)
end

theorem byName_good (R : Alts) (n : Str) (t : Ty) : ∀ (a : Alts), Alts.good R a = true → a.byName n = some t →
    t.good R = true ∧ ∃ g, t.tag? = some g ∧ a.byTag g = some (n, t) ∧ g ∈ a.tags
  | .nil, _, h => by simp [Alts.byName] at h
  | .cons m t' r, hg, h => by
    simp only [Alts.good, Bool.and_eq_true] at hg
    obtain ⟨⟨h1, h2⟩, h3⟩ := hg
    simp only [Alts.byName] at h
    split at h
    · rename_i hm
      cases h
      subst hm
      split at h3
      · rename_i g hg
        exact ⟨h1, g, hg, by simp [Alts.byTag, hg], by simp [Alts.tags, hg]⟩
      · cases h3
    · obtain ⟨h4, g, h5, h6, h7⟩ := byName_good R n t r h2 h
      refine ⟨h4, g, h5, ?_, by simp [Alts.tags, h7]⟩
      simp only [Alts.byTag]
      split at h3
      · rename_i g' hg'
        rw [hg', if_neg]
        · exact h6
        · intro e
          cases e
          simp [h7] at h3
      · cases h3

/-- an element begins with an identifier octet of its type -/
theorem first_tag (U : Rules) (R : Alts) (hR : Alts.good R R = true) : ∀ (v : Val) (t : Ty) (bs : Bytes), t.good R = true → EncT U R t v bs →
    ∃ b r, bs = b :: r ∧ b ∈ t.firsts R ∧ (∀ g, t.tag? = some g → b = g) := by
  have tl : ∀ {g : UInt8} {E : Enc} {bs : Bytes}, Spec.Wire.tlv g E bs → ∃ r, bs = g :: r := by
    rintro g E bs ⟨c, _, l, _, rfl⟩
    exact ⟨_, rfl⟩
  intro v
  induction v using Val.rec (motive_2 := fun _ => True) with
  | octets b => rintro t bs _ ⟨g, rfl, h⟩; obtain ⟨r, rfl⟩ := tl h; exact ⟨g, r, rfl, by simp [Ty.firsts, Ty.alts?, Ty.tag?], by simp [Ty.tag?]⟩
  | int z => rintro t bs _ ⟨g, _, rfl, _, h⟩; obtain ⟨r, rfl⟩ := tl h; exact ⟨g, r, rfl, by simp [Ty.firsts, Ty.alts?, Ty.tag?], by simp [Ty.tag?]⟩
  | bool b => rintro t bs _ ⟨g, rfl, h⟩; obtain ⟨r, rfl⟩ := tl h; exact ⟨g, r, rfl, by simp [Ty.firsts, Ty.alts?, Ty.tag?], by simp [Ty.tag?]⟩
  | null => rintro t bs _ ⟨g, rfl, h⟩; obtain ⟨r, rfl⟩ := tl h; exact ⟨g, r, rfl, by simp [Ty.firsts, Ty.alts?, Ty.tag?], by simp [Ty.tag?]⟩
  | seq fs _ => rintro t bs _ ⟨g, _, rfl, h⟩; obtain ⟨r, rfl⟩ := tl h; exact ⟨g, r, rfl, by simp [Ty.firsts, Ty.alts?, Ty.tag?], by simp [Ty.tag?]⟩
  | list fs _ => rintro t bs _ ⟨g, _, rfl, h⟩; obtain ⟨r, rfl⟩ := tl h; exact ⟨g, r, rfl, by simp [Ty.firsts, Ty.alts?, Ty.tag?], by simp [Ty.tag?]⟩
  | choice n v ih =>
    intro t bs hg h
    rcases h with ⟨g, i, rfl, h⟩ | ⟨alts, t', h1, h2, h3⟩
    · obtain ⟨r, rfl⟩ := tl h
      exact ⟨g, r, rfl, by simp [Ty.firsts, Ty.alts?, Ty.tag?], by simp [Ty.tag?]⟩
    · have ha : Alts.good R alts = true ∧ t.tag? = none := by
        cases t <;> simp only [Ty.alts?] at h1 <;> try cases h1
        · exact ⟨by simpa [Ty.good] using hg, rfl⟩
        · exact ⟨hR, rfl⟩
      obtain ⟨h4, g, h5, h6, h7⟩ := byName_good R n t' alts ha.1 h2
      obtain ⟨b, r, rfl, _, h8⟩ := ih t' bs h4 h3
      refine ⟨b, r, rfl, ?_, by simp [ha.2]⟩
      rw [h8 g h5, Ty.firsts, h1]
      exact h7
  | nil => trivial
  | absent _ _ => trivial
  | cons _ _ _ _ => trivial

theorem firstC (U : Rules) (R : Alts) (hR : Alts.good R R = true) : ∀ (fs : Items) (cs : Comps) (c : Bytes), Comps.good R cs = true → EncC U R cs fs c →
    ∀ b r, c = b :: r → b ∈ cs.firsts R
  | .nil, cs, c, hg, h, b, r, e => by
    cases cs with
    | nil => rw [EncC] at h; subst e; cases h
    | cons n k t cs => simp only [EncC] at h
  | .absent fs, cs, c, hg, h, b, r, e => by
    cases cs with
    | nil => simp only [EncC] at h
    | cons n k t cs =>
      simp only [Comps.good, Bool.and_eq_true] at hg
      have := firstC U R hR fs cs c hg.1.2 h.2 b r e
      rw [Comps.firsts, h.1]
      simp [this]
  | .cons v fs, cs, c, hg, h, b, r, e => by
    cases cs with
    | nil => simp only [EncC] at h
    | cons n k t cs =>
      simp only [Comps.good, Bool.and_eq_true] at hg
      obtain ⟨x, y, e1, h1, h2⟩ := h
      rcases h1 with ⟨hk, _, rfl⟩ | ⟨_, h1⟩
      · have := firstC U R hR fs cs y hg.1.2 h2 b r (by rw [← e, e1]; rfl)
        rw [Comps.firsts, hk]
        simp [this]
      · obtain ⟨d, s, rfl, h3, _⟩ := first_tag U R hR v t x hg.1.1 h1
        rw [e] at e1
        cases e1
        simp [Comps.firsts, h3]

theorem not_accepts {R : Alts} {n : Str} {k : Kind} {t : Ty} {cs : Comps} (hg : Comps.good R (.cons n k t cs) = true) (hk : k ≠ .required) {b : UInt8}
    (hb : b ∈ cs.firsts R) : t.accepts R b = false := by
  simp only [Comps.good, Bool.and_eq_true] at hg
  have h := hg.2
  simp only [hk, decide_false, Bool.false_or, List.all_eq_true] at h
  cases ha : t.accepts R b with
  | false => rfl
  | true =>
    have := h b ((accepts_iff R t b).1 ha)
    simp [hb] at this

theorem tlv_len {g : UInt8} {c bs : Bytes} (h : IsTlv g c bs) : c.length + 2 ≤ bs.length := by
  obtain ⟨l, hl, rfl⟩ := h
  have : 1 ≤ l.length := by
    generalize c.length = n at hl
    cases hl <;> simp
  simp
  omega

/-- the fuel an element needs: choices take one more -/
def need (t : Ty) (bs : Bytes) : Nat := 2 * bs.length + (if t.tag?.isSome then 0 else 1)

theorem need_le (t : Ty) (bs : Bytes) : need t bs ≤ 2 * bs.length + 1 := by unfold need; split <;> omega

mutual
/-- **the decoder reads every encoding** -/
theorem decode_ok (R : Alts) (hR : Alts.good R R = true) : ∀ (v : Val) (t : Ty) (bs rest : Bytes) (f : Nat), Ty.good R t = true → EncT loosely R t v bs → need t bs ≤ f →
    decode R f t (bs ++ rest) = .ok (v, rest)
  | .octets b, t, bs, rest, f => by
    rintro hg ⟨g, rfl, c, rfl, hc⟩ hf
    have := tlv_len hc
    simp only [need, Ty.tag?, Option.isSome_some, if_true] at hf
    obtain ⟨f, rfl⟩ : ∃ k, f = k + 1 := ⟨f - 1, by omega⟩
    simp only [Ty.good, okTag, decide_eq_true_eq] at hg
    simp [decode, header_ok hg hc]
  | .int z, t, bs, rest, f => by
    rintro hg ⟨g, r, rfl, hr, c, hz, hc⟩ hf
    have := tlv_len hc
    simp only [need, Ty.tag?, Option.isSome_some, if_true] at hf
    obtain ⟨f, rfl⟩ : ∃ k, f = k + 1 := ⟨f - 1, by omega⟩
    simp only [Ty.good, okTag, decide_eq_true_eq] at hg
    simp [decode, header_ok hg hc, (integer_loosely _ _).1 hz, hr]
  | .bool b, t, bs, rest, f => by
    rintro hg ⟨g, rfl, c, hb, hc⟩ hf
    have := tlv_len hc
    simp only [need, Ty.tag?, Option.isSome_some, if_true] at hf
    obtain ⟨f, rfl⟩ : ∃ k, f = k + 1 := ⟨f - 1, by omega⟩
    simp only [Ty.good, okTag, decide_eq_true_eq] at hg
    have hb := (boolean_loosely b c).1 hb
    simp [decode, header_ok hg hc, hb]
  | .null, t, bs, rest, f => by
    rintro hg ⟨g, rfl, c, rfl, hc⟩ hf
    have := tlv_len hc
    simp only [need, Ty.tag?, Option.isSome_some, if_true] at hf
    obtain ⟨f, rfl⟩ : ∃ k, f = k + 1 := ⟨f - 1, by omega⟩
    simp only [Ty.good, okTag, decide_eq_true_eq] at hg
    simp [decode, header_ok hg hc]
  | .seq fs, t, bs, rest, f => by
    rintro hg ⟨g, cs, rfl, c, hcs, hc⟩ hf
    have := tlv_len hc
    simp only [need, Ty.tag?, Option.isSome_some, if_true] at hf
    obtain ⟨f, rfl⟩ : ∃ k, f = k + 1 := ⟨f - 1, by omega⟩
    simp only [Ty.good, okTag, Bool.and_eq_true, decide_eq_true_eq] at hg
    simp [decode, header_ok hg.1 hc, decodeComps_ok R hR fs cs c f hg.2 hcs (by omega)]
  | .list vs, t, bs, rest, f => by
    rintro hg ⟨g, e, rfl, c, hl, hc⟩ hf
    have := tlv_len hc
    simp only [need, Ty.tag?, Option.isSome_some, if_true] at hf
    obtain ⟨f, rfl⟩ : ∃ k, f = k + 1 := ⟨f - 1, by omega⟩
    simp only [Ty.good, okTag, Bool.and_eq_true, decide_eq_true_eq] at hg
    simp [decode, header_ok hg.1 hc, decodeList_ok R hR vs e c f c.length hg.2 hl (by omega) (Nat.le_refl _)]
  | .choice n v, t, bs, rest, f => by
    rintro hg (⟨g, inner, rfl, c, hi, hc⟩ | ⟨alts, t', h1, h2, h3⟩) hf
    · have := tlv_len hc
      simp only [need, Ty.tag?, Option.isSome_some, if_true] at hf
      obtain ⟨f, rfl⟩ : ∃ k, f = k + 1 := ⟨f - 1, by omega⟩
      simp only [Ty.good, okTag, Bool.and_eq_true, decide_eq_true_eq] at hg
      have hn := need_le inner c
      have := decode_ok R hR v inner c [] f hg.2 hi (by omega)
      rw [List.append_nil] at this
      simp [decode, header_ok hg.1 hc, this]
    · have ha : Alts.good R alts = true ∧ t.tag? = none := by
        cases t <;> simp only [Ty.alts?] at h1 <;> try cases h1
        · exact ⟨by simpa [Ty.good] using hg, rfl⟩
        · exact ⟨hR, rfl⟩
      obtain ⟨h4, g, h5, h6, h7⟩ := byName_good R n t' alts ha.1 h2
      simp only [need, ha.2, Option.isSome_none, Bool.false_eq_true, if_false] at hf
      obtain ⟨f, rfl⟩ : ∃ k, f = k + 1 := ⟨f - 1, by omega⟩
      have ih := decode_ok R hR v t' bs rest f h4 h3 (by simp only [need, h5, Option.isSome_some, if_true]; omega)
      -- the header of the alternative
      obtain ⟨f', rfl⟩ : ∃ k, f = k + 1 := by
        cases f with
        | zero => simp [decode] at ih
        | succ k => exact ⟨k, rfl⟩
      obtain ⟨b, r, hb, _, h8⟩ := first_tag loosely R hR v t' bs h4 h3
      have hh : ∃ c r', header (bs ++ rest) = .ok (g, c, r') := by
        cases hx : header (bs ++ rest) with
        | underrun => simp [decode, hx] at ih
        | bad => simp [decode, hx] at ih
        | ok x =>
          obtain ⟨g', c, r'⟩ := x
          refine ⟨c, r', ?_⟩
          have : g' = b := by
            rw [hb, List.cons_append, header] at hx
            split at hx
            · cases hx
            · split at hx <;> try cases hx
              split at hx <;> cases hx
              rfl
          rw [this, h8 g h5]
      obtain ⟨c, r', hh⟩ := hh
      rw [decode.eq_def]
      simp only [hh]
      cases t <;> simp only [Ty.alts?] at h1 <;> try (cases h1; done)
      · cases h1
        simp only [Ty.alts?, h6, ih]
      · cases h1
        simp only [Ty.alts?, h6, ih]
theorem decodeList_ok (R : Alts) (hR : Alts.good R R = true) : ∀ (vs : Items) (e : Ty) (c : Bytes) (f k : Nat), Ty.good R e = true → EncL loosely R e vs c → 2 * c.length + 1 ≤ f →
    c.length ≤ k → decodeList (decode R f e) k c = .ok vs
  | .nil, e, c, f, k => by
    intro _ h _ _
    simp only [EncL, nothing] at h
    subst h
    cases k <;> rfl
  | .absent _, e, c, f, k => by
    intro _ h
    simp only [EncL] at h
  | .cons v vs, e, c, f, k => by
    rintro hg ⟨a, b, rfl, h1, h2⟩ hf hk
    obtain ⟨d, s, hd, _⟩ := first_tag loosely R hR v e a hg h1
    have hl : 1 ≤ a.length := by rw [hd]; simp
    simp only [List.length_append] at hf hk
    obtain ⟨k, rfl⟩ : ∃ j, k = j + 1 := ⟨k - 1, by omega⟩
    have hn := need_le e a
    have e1 := decode_ok R hR v e a b f hg h1 (by omega)
    have e2 := decodeList_ok R hR vs e b f k hg h2 (by omega) (by omega)
    subst hd
    simp only [List.cons_append] at e1 ⊢
    simp [decodeList, e1, e2]
theorem decodeComps_ok (R : Alts) (hR : Alts.good R R = true) : ∀ (fs : Items) (cs : Comps) (c : Bytes) (f : Nat), Comps.good R cs = true → EncC loosely R cs fs c → 2 * c.length + 1 ≤ f →
    decodeComps R (decode R f) cs c = .ok fs
  | .nil, cs, c, f => by
    intro _ h _
    cases cs with
    | nil => rw [EncC] at h; cases h; rfl
    | cons n k t cs => simp only [EncC] at h
  | .absent fs, cs, c, f => by
    intro hg h hf
    cases cs with
    | nil => simp only [EncC] at h
    | cons n k t cs =>
      have hg' := hg
      simp only [Comps.good, Bool.and_eq_true] at hg'
      obtain ⟨rfl, h⟩ := h
      have ih := decodeComps_ok R hR fs cs c f hg'.1.2 h hf
      cases c with
      | nil => simp [decodeComps, ih, decodeComps.skip]
      | cons b r =>
        have := not_accepts hg (by decide) (firstC loosely R hR fs cs _ hg'.1.2 h b r rfl)
        simp [decodeComps, this, ih, decodeComps.skip]
  | .cons v fs, cs, c, f => by
    intro hg h hf
    cases cs with
    | nil => simp only [EncC] at h
    | cons n k t cs =>
      have hg' := hg
      simp only [Comps.good, Bool.and_eq_true] at hg'
      obtain ⟨a, b, rfl, h1, h2⟩ := h
      simp only [List.length_append] at hf
      have ih := decodeComps_ok R hR fs cs b f hg'.1.2 h2 (by omega)
      rcases h1 with ⟨rfl, rfl, rfl⟩ | ⟨_, h1⟩
      · cases b with
        | nil => simp [decodeComps, ih, decodeComps.skip]
        | cons b r =>
          have := not_accepts hg (by decide) (firstC loosely R hR fs cs _ hg'.1.2 h2 b r rfl)
          simp [decodeComps, this, ih, decodeComps.skip]
      · obtain ⟨d, s, hd, hm, _⟩ := first_tag loosely R hR v t a hg'.1.1 h1
        have hn := need_le t a
        have e1 := decode_ok R hR v t a b f hg'.1.1 h1 (by omega)
        have hacc := (accepts_iff R t d).2 hm
        subst hd
        simp only [List.cons_append] at e1 ⊢
        simp [decodeComps, hacc, e1, ih]
end

/-! ## What the decoder took is self-delimiting: it reads the same whatever follows -/

theorem length_inv {v r : Bytes} {n : Nat} (h : length v = .ok (n, r)) : ∃ l, v = l ++ r ∧ (∀ s, length (l ++ s) = .ok (n, s)) ∧
    ∀ p q, q ≠ [] → l = p ++ q → length p = .underrun := by
  cases v with
  | nil => cases h
  | cons b v =>
    rw [length] at h
    split at h
    · rename_i hb
      cases h
      refine ⟨[b], rfl, fun s => by simp [length, hb], fun p q hq e => ?_⟩
      cases p with
      | nil => rfl
      | cons x p =>
        simp only [List.cons_append, List.cons.injEq] at e
        obtain ⟨_, e⟩ := e
        exact absurd (List.append_eq_nil_iff.1 e.symm).2 hq
    · split at h
      · cases h
      · split at h
        · cases h
        · rename_i h1 h2 h3
          simp only [Res.ok.injEq, Prod.mk.injEq] at h
          obtain ⟨rfl, rfl⟩ := h
          refine ⟨b :: v.take (b.toNat - 128), by simp, fun s => ?_, fun p q hq e => ?_⟩
          · have hl : (v.take (b.toNat - 128)).length = b.toNat - 128 := by rw [List.length_take]; omega
            rw [List.cons_append, length, if_neg h1, if_neg h2, if_neg (by simp only [List.length_append, hl]; omega)]
            rw [List.take_left' hl, List.drop_left' hl]
          · cases p with
            | nil => rfl
            | cons x p =>
              simp only [List.cons_append, List.cons.injEq] at e
              obtain ⟨rfl, e⟩ := e
              have hq' : 0 < q.length := List.length_pos_iff.2 hq
              have hl := congrArg List.length e
              simp only [List.length_take, List.length_append] at hl
              rw [length, if_neg h1, if_neg h2, if_pos (by omega)]

theorem header_inv {v c r : Bytes} {g : UInt8} (h : header v = .ok (g, c, r)) : ∃ bs, v = bs ++ r ∧ bs ≠ [] ∧ c.length + 2 ≤ bs.length ∧ (∀ s, header (bs ++ s) = .ok (g, c, s)) ∧
    ∀ p q, q ≠ [] → bs = p ++ q → header p = .underrun := by
  cases v with
  | nil => cases h
  | cons t v =>
    rw [header] at h
    split at h
    · cases h
    · rename_i ht
      cases hl : length v with
      | underrun => rw [hl] at h; cases h
      | bad => rw [hl] at h; cases h
      | ok x =>
        obtain ⟨n, w⟩ := x
        rw [hl] at h
        simp only at h
        split at h
        · cases h
        · rename_i hn
          cases h
          obtain ⟨l, rfl, h1, h2⟩ := length_inv hl
          have hl0 : 1 ≤ l.length := by
            cases l with
            | nil => have := h1 []; simp [length] at this
            | cons => simp
          have hc : (w.take n).length = n := by rw [List.length_take]; omega
          refine ⟨_ :: (l ++ w.take n), by simp; rfl, by simp, by simp [hc]; omega, fun s => ?_, fun p q hq e => ?_⟩
          · rw [List.cons_append, header, if_neg ht, List.append_assoc, h1]
            simp only
            rw [if_neg (by simp only [List.length_append, hc]; omega), List.take_left' hc, List.drop_left' hc]
          · cases p with
            | nil => rfl
            | cons x p =>
              simp only [List.cons_append, List.cons.injEq] at e
              obtain ⟨rfl, e⟩ := e
              rw [header, if_neg ht]
              -- is the length there?
              rcases Nat.lt_or_ge p.length l.length with hp | hp
              · have hpl : l = p ++ l.drop p.length := by
                  have := congrArg (List.take p.length) e
                  rw [List.take_left' rfl, List.take_append_of_le_length (by omega)] at this
                  exact (List.take_append_drop p.length l).symm.trans (by rw [this])
                rw [h2 p (l.drop p.length) (by intro h0; have := congrArg List.length h0; simp at this; omega) hpl]
              · obtain ⟨m, rfl⟩ : ∃ m, p = l ++ m := by
                  have := congrArg (List.take l.length) e
                  rw [List.take_left' rfl, List.take_append_of_le_length hp] at this
                  exact ⟨p.drop l.length, (List.take_append_drop l.length p).symm.trans (by rw [← this])⟩
                rw [h1]
                simp only
                rw [List.append_assoc] at e
                have e' := List.append_cancel_left e
                have hq' : 0 < q.length := List.length_pos_iff.2 hq
                have := congrArg List.length e'
                simp only [hc, List.length_append] at this
                rw [if_pos (by omega)]

theorem decode_rest (R : Alts) : ∀ (f : Nat) (t : Ty) (bs r : Bytes) (v : Val), decode R f t bs = .ok (v, r) → ∃ g c, header bs = .ok (g, c, r) := by
  intro f
  induction f with
  | zero => intro t bs r v h; cases h
  | succ f ih =>
    intro t bs r v h
    rw [decode.eq_def] at h
    simp only at h
    cases hh : header bs with
    | underrun => rw [hh] at h; cases h
    | bad => rw [hh] at h; cases h
    | ok x =>
      obtain ⟨g, c, rest⟩ := x
      rw [hh] at h
      have key : ∀ alts : Alts, (match alts.byTag g with
          | none => Res.bad
          | some (name, t') => match decode R f t' bs with
            | .ok (v, r) => .ok (Val.choice name v, r)
            | .underrun => .underrun
            | .bad => .bad) = .ok (v, r) → ∃ g c, header bs = .ok (g, c, r) := by
        intro alts h
        cases hb : alts.byTag g with
        | none => rw [hb] at h; cases h
        | some y =>
          rw [hb] at h
          simp only at h
          split at h <;> cases h
          rename_i hd
          exact ih _ _ _ _ hd
      have fin : rest = r → ∃ g' c', (Res.ok (g, c, rest) : Res (UInt8 × Bytes × Bytes)) = .ok (g', c', r) := fun e => ⟨g, c, by rw [e]⟩
      cases t with
      | octets g' => simp only at h; split at h <;> cases h; exact ⟨_, _, rfl⟩
      | int g' r' => simp only at h; split at h <;> cases h; exact ⟨_, _, rfl⟩
      | bool g' => simp only at h; split at h <;> cases h; exact ⟨_, _, rfl⟩
      | null g' => simp only at h; split at h <;> cases h; exact ⟨_, _, rfl⟩
      | seq g' cs => simp only at h; split at h <;> try cases h
                     split at h <;> cases h; exact ⟨_, _, rfl⟩
      | list g' e => simp only at h; split at h <;> try cases h
                     split at h <;> cases h; exact ⟨_, _, rfl⟩
      | wrapped g' n i => simp only at h; split at h <;> try cases h
                          split at h <;> cases h; exact ⟨_, _, rfl⟩
      | choice a => rw [← hh]; exact key a h
      | self => rw [← hh]; exact key R h

theorem decodeComps_congr (R : Alts) (d d' : Ty → Bytes → Res (Val × Bytes)) (hd : ∀ t b v r, d t b = .ok (v, r) → r.length ≤ b.length) :
    ∀ (cs : Comps) (c : Bytes), (∀ t (b : Bytes), b.length ≤ c.length → d t b = d' t b) → decodeComps R d cs c = decodeComps R d' cs c
  | .nil, c, _ => by cases c <;> rfl
  | .cons n k t cs, c, h => by
    cases c with
    | nil => simp only [decodeComps, decodeComps_congr R d d' hd cs [] h]
    | cons b c =>
      simp only [decodeComps]
      rw [← h t (b :: c) (Nat.le_refl _), decodeComps_congr R d d' hd cs (b :: c) h]
      split
      · cases hx : d t (b :: c) with
        | underrun => rfl
        | bad => rfl
        | ok x =>
          obtain ⟨v, r⟩ := x
          have := hd _ _ _ _ hx
          simp only [decodeComps_congr R d d' hd cs r (fun t b hb => h t b (Nat.le_trans hb this))]
      · rfl

theorem decodeList_congr (d d' : Bytes → Res (Val × Bytes)) (hd : ∀ b v r, d b = .ok (v, r) → r.length ≤ b.length) :
    ∀ (k : Nat) (c : Bytes), (∀ (b : Bytes), b.length ≤ c.length → d b = d' b) → decodeList d k c = decodeList d' k c
  | 0, c, _ => by cases c <;> rfl
  | k + 1, [], _ => rfl
  | k + 1, b :: c, h => by
    simp only [decodeList]
    rw [← h (b :: c) (Nat.le_refl _)]
    cases hx : d (b :: c) with
    | underrun => rfl
    | bad => rfl
    | ok x =>
      obtain ⟨v, r⟩ := x
      have := hd _ _ _ hx
      simp only [decodeList_congr d d' hd k r (fun b hb => h b (Nat.le_trans hb this))]

theorem byTag_tag (g : UInt8) (n : Str) (t : Ty) : ∀ (a : Alts), a.byTag g = some (n, t) → t.tag? = some g
  | .nil, h => by cases h
  | .cons m t' r, h => by
    simp only [Alts.byTag] at h
    split at h
    · cases h; assumption
    · exact byTag_tag g n t r h

/-- with enough fuel, the fuel does not matter -/
theorem decode_fuel (R : Alts) (m : Nat) : ∀ (bs : Bytes), bs.length ≤ m → ∀ (t : Ty) (f f' : Nat), 1 ≤ f → need t bs ≤ f → 1 ≤ f' → need t bs ≤ f' →
    decode R f t bs = decode R f' t bs := by
  induction m with
  | zero =>
    intro bs hb t f f' h1 _ h2 _
    obtain ⟨f, rfl⟩ : ∃ k, f = k + 1 := ⟨f - 1, by omega⟩
    obtain ⟨f', rfl⟩ : ∃ k, f' = k + 1 := ⟨f' - 1, by omega⟩
    have : bs = [] := List.length_eq_zero_iff.1 (by omega)
    subst this
    simp [decode, header]
  | succ m ihm =>
    intro bs hb t f f' h1 hf h2 hf'
    -- first the types with an identifier octet
    have tagged : ∀ (t : Ty) (f f' : Nat), t.tag?.isSome = true → 1 ≤ f → need t bs ≤ f → 1 ≤ f' → need t bs ≤ f' → decode R f t bs = decode R f' t bs := by
      intro t f f' ht h1 hf h2 hf'
      obtain ⟨f, rfl⟩ : ∃ k, f = k + 1 := ⟨f - 1, by omega⟩
      obtain ⟨f', rfl⟩ : ∃ k, f' = k + 1 := ⟨f' - 1, by omega⟩
      simp only [need, ht, if_true] at hf hf'
      rw [decode.eq_def, decode.eq_def]
      simp only
      cases hh : header bs with
      | underrun => rfl
      | bad => rfl
      | ok x =>
        obtain ⟨g, c, rest⟩ := x
        obtain ⟨b0, e0, _, hc, _⟩ := header_inv hh
        have hl : b0.length ≤ bs.length := by rw [e0]; simp
        have inner : ∀ (t : Ty) (b : Bytes), b.length ≤ c.length → decode R f t b = decode R f' t b := by
          intro t b hb'
          have := need_le t b
          exact ihm b (by omega) t f f' (by omega) (by omega) (by omega) (by omega)
        have shrink : ∀ (t : Ty) (b : Bytes) (v : Val) (r : Bytes), decode R f t b = .ok (v, r) → r.length ≤ b.length := by
          intro t b v r h
          obtain ⟨g, c, h⟩ := decode_rest R f t b r v h
          obtain ⟨b1, e1, _⟩ := header_inv h
          rw [e1]; simp
        cases t with
        | octets g' => rfl
        | int g' r' => rfl
        | bool g' => rfl
        | null g' => rfl
        | seq g' cs => simp only [decodeComps_congr R _ _ shrink cs c inner]
        | list g' e => simp only [decodeList_congr _ _ (shrink e) c.length c (inner e)]
        | wrapped g' n i => simp only [inner i c (Nat.le_refl _)]
        | choice a => cases ht
        | self => cases ht
    by_cases ht : t.tag?.isSome = true
    · exact tagged t f f' ht h1 hf h2 hf'
    · simp only [need, ht, Bool.false_eq_true, if_false] at hf hf'
      obtain ⟨f, rfl⟩ : ∃ k, f = k + 1 := ⟨f - 1, by omega⟩
      obtain ⟨f', rfl⟩ : ∃ k, f' = k + 1 := ⟨f' - 1, by omega⟩
      rw [decode.eq_def, decode.eq_def]
      simp only
      cases hh : header bs with
      | underrun => rfl
      | bad => rfl
      | ok x =>
        obtain ⟨g, c, rest⟩ := x
        obtain ⟨b0, e0, _, hc, _⟩ := header_inv hh
        have hl : b0.length ≤ bs.length := by rw [e0]; simp
        have alt : ∀ (a : Alts) n t', a.byTag g = some (n, t') → decode R f t' bs = decode R f' t' bs := by
          intro a n t' h
          have hs := byTag_tag g n t' a h
          exact tagged t' f f' (by rw [hs]; rfl) (by omega) (by simp only [need, hs, Option.isSome_some, if_true]; omega) (by omega)
            (by simp only [need, hs, Option.isSome_some, if_true]; omega)
        cases t with
        | octets g' => exact absurd rfl ht
        | int g' r' => exact absurd rfl ht
        | bool g' => exact absurd rfl ht
        | null g' => exact absurd rfl ht
        | seq g' cs => exact absurd rfl ht
        | list g' e => exact absurd rfl ht
        | wrapped g' n i => exact absurd rfl ht
        | choice a =>
          simp only [Ty.alts?]
          cases hb : a.byTag g with
          | none => rfl
          | some y => simp only [alt a y.1 y.2 hb]
        | self =>
          simp only [Ty.alts?]
          cases hb : R.byTag g with
          | none => rfl
          | some y => simp only [alt R y.1 y.2 hb]

/-- what follows does not matter -/
theorem decode_local (R : Alts) : ∀ (f : Nat) (t : Ty) (bs r : Bytes), bs ≠ [] → (∃ g c, ∀ s, header (bs ++ s) = .ok (g, c, s)) → (v : Val) →
    decode R f t (bs ++ r) = .ok (v, r) → ∀ s, decode R f t (bs ++ s) = .ok (v, s) := by
  intro f
  induction f with
  | zero => intro t bs r _ _ v h; cases h
  | succ f ih =>
    intro t bs r hne hloc v h s
    obtain ⟨g, c, hc⟩ := hloc
    rw [decode.eq_def] at h ⊢
    simp only [hc] at h ⊢
    have key : ∀ alts : Alts, (match alts.byTag g with
          | none => Res.bad
          | some (name, t') => match decode R f t' (bs ++ r) with
            | .ok (v, r) => .ok (Val.choice name v, r)
            | .underrun => .underrun
            | .bad => .bad) = .ok (v, r) → (match alts.byTag g with
          | none => Res.bad
          | some (name, t') => match decode R f t' (bs ++ s) with
            | .ok (v, r) => .ok (Val.choice name v, r)
            | .underrun => .underrun
            | .bad => .bad) = .ok (v, s) := by
      intro alts h
      cases hb : alts.byTag g with
      | none => rw [hb] at h; cases h
      | some y =>
        rw [hb] at h
        simp only at h ⊢
        split at h <;> cases h
        rename_i hd
        rw [ih _ bs _ hne ⟨g, c, hc⟩ _ hd s]
    cases t with
    | octets g' => simp only at h ⊢; split at h <;> cases h; simp_all
    | int g' r' => simp only at h ⊢; split at h <;> cases h; simp_all
    | bool g' => simp only at h ⊢; split at h <;> cases h; simp_all
    | null g' => simp only at h ⊢; split at h <;> cases h; simp_all
    | seq g' cs =>
      simp only at h ⊢
      split at h <;> try cases h
      split at h <;> cases h
      simp_all
    | list g' e =>
      simp only at h ⊢
      split at h <;> try cases h
      split at h <;> cases h
      simp_all
    | wrapped g' n i =>
      simp only at h ⊢
      split at h <;> try cases h
      split at h <;> cases h
      simp_all
    | choice a => exact key a h
    | self => exact key R h

/-- **self-delimiting**: what `berDecode` took it takes whatever follows, and no part of it is enough -/
theorem berDecode_inv (R : Alts) (t : Ty) (raw r : Bytes) (v : Val) (h : berDecode R t raw = .ok (v, r)) :
    ∃ bs, raw = bs ++ r ∧ bs ≠ [] ∧ (∀ s, berDecode R t (bs ++ s) = .ok (v, s)) ∧ ∀ p q, q ≠ [] → bs = p ++ q → berDecode R t p = .underrun := by
  obtain ⟨g, c, hh⟩ := decode_rest R _ t raw r v h
  obtain ⟨bs, rfl, hne, hc, hloc, hshort⟩ := header_inv hh
  have hl : 1 ≤ bs.length := by omega
  refine ⟨bs, rfl, hne, fun s => ?_, fun p q hq e => ?_⟩
  · have h1 : decode R (2 * (bs.length + r.length + s.length) + 1) t (bs ++ r) = .ok (v, r) := by
      rw [← h, berDecode]
      have := need_le t (bs ++ r)
      simp only [List.length_append] at this ⊢
      exact decode_fuel R _ _ (Nat.le_refl _) t _ _ (by omega) (by omega) (by omega) (by omega)
    have h2 := decode_local R _ t bs r hne ⟨g, c, hloc⟩ v h1 s
    rw [← h2, berDecode]
    have := need_le t (bs ++ s)
    simp only [List.length_append] at this ⊢
    exact decode_fuel R _ _ (Nat.le_refl _) t _ _ (by omega) (by omega) (by omega) (by omega)
  · rw [berDecode, decode.eq_def]
    simp only [hshort p q hq e]

/-! ## The encoder succeeds whenever there is an encoding, and none is shorter -/

theorem natBytes_low (n : Nat) (h : n ≠ 0) : ∃ b r, Ber.natBytes n = b :: r ∧ b.toNat * 256 ^ r.length ≤ n ∧ 1 ≤ b.toNat := by
  obtain ⟨b, r, h1, h2⟩ := digits_head n n [] (Nat.le_refl _) h
  have h1' : Ber.natBytes n = b :: r := h1
  refine ⟨b, r, h1', ?_, by omega⟩
  have := Props.PagedP.beNat_natBytes n
  rw [h1', beNat_cons] at this
  omega

theorem natBytes_short {n k : Nat} (h : n < 256 ^ k) : (Ber.natBytes n).length ≤ k := by
  by_cases h0 : n = 0
  · subst h0; simp [Ber.natBytes, Ber.digits]
  · obtain ⟨b, r, h1, h2, h3⟩ := natBytes_low n h0
    rw [h1, List.length_cons]
    rcases Nat.lt_or_ge r.length k with h4 | h4
    · omega
    · have h5 : 256 ^ k ≤ 256 ^ r.length := Nat.pow_le_pow_right (by omega) h4
      have h6 : 1 * 256 ^ r.length ≤ b.toNat * 256 ^ r.length := Nat.mul_le_mul_right _ h3
      omega

theorem lenBytes_min {n m : Nat} {l : Bytes} (h : IsLen n l) (hm : m ≤ n) : ∃ l', Ber.lenBytes m = some l' ∧ l'.length ≤ l.length := by
  unfold Ber.lenBytes
  by_cases h1 : m < 128
  · rw [if_pos h1]
    refine ⟨_, rfl, ?_⟩
    cases h <;> simp
  · rw [if_neg h1]
    cases h with
    | short b hb => omega
    | @long _ bs b h2 h3 h4 h5 =>
      have h6 := Props.PagedP.unsigned_beNat _ _ h5
      have h7 := beNat_lt bs
      have h8 : (Ber.natBytes m).length ≤ bs.length := natBytes_short (by omega)
      rw [if_neg (by omega)]
      exact ⟨_, rfl, by simpa using h8⟩

theorem tlv_min {g : UInt8} {c c' bs : Bytes} (h : IsTlv g c bs) (hc : c'.length ≤ c.length) : ∃ bs', Ber.tlv g c' = some bs' ∧ bs'.length ≤ bs.length := by
  obtain ⟨l, hl, rfl⟩ := h
  obtain ⟨l', h1, h2⟩ := lenBytes_min hl hc
  refine ⟨g :: (l' ++ c'), by simp [Ber.tlv, h1], ?_⟩
  simp
  omega

theorem intBytes_min (n : Nat) (bs : Bytes) (h : IsInt n bs) : (Ber.intBytes n).length ≤ bs.length := by
  obtain ⟨b, r, m, rfl, hu, he⟩ := h
  have hm := Props.PagedP.unsigned_beNat _ _ hu
  have hlt := beNat_lt (b :: r)
  split at he
  · rename_i hb
    have hnm : n = m := Int.ofNat.inj he
    unfold Ber.intBytes
    by_cases h0 : n = 0
    · subst h0; simp [Ber.natBytes, Ber.digits]
    · obtain ⟨d, s, h1, h2, h3⟩ := natBytes_low n h0
      have h4 := natBytes_short (n := n) (k := (b :: r).length) (by omega)
      rw [h1] at h4 ⊢
      simp only
      split
      · exact h4
      · rename_i hd
        have h5 : 128 * 256 ^ s.length ≤ d.toNat * 256 ^ s.length := Nat.mul_le_mul_right _ (by omega)
        have h6 := beNat_lt r
        have h7 := beNat_cons b r
        have h8 : b.toNat * 256 ^ r.length ≤ 127 * 256 ^ r.length := Nat.mul_le_mul_right _ (by omega)
        simp only [List.length_cons] at h4 ⊢
        rcases Nat.lt_or_ge s.length r.length with h9 | h9
        · omega
        · have h10 : 256 ^ r.length ≤ 256 ^ s.length := Nat.pow_le_pow_right (by omega) h9
          omega
  · exfalso
    have : (m : Int) < (256 : Int) ^ (b :: r).length := by
      have h : ((256 ^ (b :: r).length : Nat) : Int) = (256 : Int) ^ (b :: r).length := by simp
      rw [← h]
      exact Int.ofNat_lt.2 (by omega)
    omega

theorem isInt_flip {n : Nat} {bs : Bytes} (h : IsInt (Int.negSucc n) bs) : IsInt n (bs.map (fun b => 255 - b)) := by
  obtain ⟨b, r, m, rfl, hu, he⟩ := h
  have hm := Props.PagedP.unsigned_beNat _ _ hu
  split at he
  · exact absurd he (by omega)
  · rename_i hb
    have hf := beNat_flip (b :: r)
    refine ⟨255 - b, r.map (fun b => 255 - b), _, rfl, Props.PagedP.beNat_unsigned _, ?_⟩
    have hlt : b.toNat < 256 := b.toNat_lt
    rw [if_pos (by rw [flip_toNat]; omega)]
    have h : ((256 ^ (b :: r).length : Nat) : Int) = (256 : Int) ^ (b :: r).length := by simp
    rw [← h, Int.negSucc_eq] at he
    simp only [List.map_cons] at hf ⊢
    omega

theorem zBytes_min {z : Int} {c : Bytes} (h : IsInt z c) : (zBytes z).length ≤ c.length := by
  cases z with
  | ofNat n => exact intBytes_min n c h
  | negSucc n =>
    have := intBytes_min n _ (isInt_flip h)
    simpa [zBytes] using this

mutual
theorem encode_min (U : Rules) (hL : ¬ U.loose) (R : Alts) : ∀ (v : Val) (t : Ty) (bs : Bytes), EncT U R t v bs → ∃ bs', encode R t v = some bs' ∧ bs'.length ≤ bs.length
  | .octets b, t, bs => by
    rintro ⟨g, rfl, c, rfl, h⟩
    exact tlv_min h (Nat.le_refl _)
  | .int z, t, bs => by
    rintro ⟨g, r, rfl, hr, c, hz | ⟨hz, _⟩, h⟩
    · simp only [encode, hr, if_true]
      exact tlv_min h (zBytes_min hz.1)
    · exact absurd hz hL
  | .bool b, t, bs => by
    rintro ⟨g, rfl, c, ⟨o, rfl, _⟩ | ⟨hz, _⟩, h⟩
    · exact tlv_min h (Nat.le_refl _)
    · exact absurd hz hL
  | .null, t, bs => by
    rintro ⟨g, rfl, c, rfl, h⟩
    exact tlv_min h (Nat.le_refl _)
  | .seq fs, t, bs => by
    rintro ⟨g, cs, rfl, c, hc, h⟩
    obtain ⟨c', h1, h2⟩ := encodeComps_min U hL R fs cs c hc
    simp only [encode, h1]
    exact tlv_min h h2
  | .list vs, t, bs => by
    rintro ⟨g, e, rfl, c, hc, h⟩
    obtain ⟨c', h1, h2⟩ := encodeList_min U hL R vs e c hc
    simp only [encode, h1]
    exact tlv_min h h2
  | .choice n v, t, bs => by
    rintro (⟨g, i, rfl, c, hc, h⟩ | ⟨alts, t', h1, h2, h3⟩)
    · obtain ⟨c', h1, h2⟩ := encode_min U hL R v i c hc
      simp only [encode, h1, if_true]
      exact tlv_min h h2
    · obtain ⟨b, h4, h5⟩ := encode_min U hL R v t' bs h3
      refine ⟨b, ?_, h5⟩
      cases t <;> simp only [Ty.alts?] at h1 <;> try (cases h1; done)
      · cases h1; simp only [encode, Ty.alts?, h2, h4]
      · cases h1; simp only [encode, Ty.alts?, h2, h4]
theorem encodeList_min (U : Rules) (hL : ¬ U.loose) (R : Alts) : ∀ (vs : Items) (e : Ty) (c : Bytes), EncL U R e vs c → ∃ c', encodeList R e vs = some c' ∧ c'.length ≤ c.length
  | .nil, e, c => by
    intro _
    exact ⟨[], by simp [encodeList], by simp⟩
  | .absent _, e, c => by intro h; simp only [EncL] at h
  | .cons v vs, e, c => by
    rintro ⟨a, b, rfl, h1, h2⟩
    obtain ⟨a', e1, l1⟩ := encode_min U hL R v e a h1
    obtain ⟨b', e2, l2⟩ := encodeList_min U hL R vs e b h2
    refine ⟨a' ++ b', by simp [encodeList, e1, e2], ?_⟩
    simp
    omega
theorem encodeComps_min (U : Rules) (hL : ¬ U.loose) (R : Alts) : ∀ (fs : Items) (cs : Comps) (c : Bytes), EncC U R cs fs c → ∃ c', encodeComps R cs fs = some c' ∧ c'.length ≤ c.length
  | .nil, cs, c => by
    intro h
    cases cs with
    | nil => exact ⟨[], by simp [encodeComps], by simp⟩
    | cons n k t cs => simp only [EncC] at h
  | .absent r, cs, c => by
    intro h
    cases cs with
    | nil => simp only [EncC] at h
    | cons n k t cs =>
      obtain ⟨c', e1, l1⟩ := encodeComps_min U hL R r cs c h.2
      exact ⟨c', by simp [encodeComps, h.1, e1], l1⟩
  | .cons v r, cs, c => by
    intro h
    cases cs with
    | nil => simp only [EncC] at h
    | cons n k t cs =>
      obtain ⟨a, b, rfl, h1, h2⟩ := h
      obtain ⟨b', e2, l2⟩ := encodeComps_min U hL R r cs b h2
      simp only [encodeComps, e2]
      by_cases hd : k = .defaultFalse ∧ v.isFalse = true
      · rw [if_pos hd]
        exact ⟨[] ++ b', rfl, by simp; omega⟩
      · rw [if_neg hd]
        rcases h1 with ⟨hk, rfl, _⟩ | ⟨_, h1⟩
        · exact absurd ⟨hk, rfl⟩ hd
        · obtain ⟨a', e1, l1⟩ := encode_min U hL R v t a h1
          rw [e1]
          exact ⟨a' ++ b', rfl, by simp; omega⟩
end

/-! ## TRUE -/

mutual
/-- nothing in it is TRUE -/
def Val.noTrue : Val → Bool
  | .bool b => !b
  | .seq fs => Items.noTrue fs
  | .list vs => Items.noTrue vs
  | .choice _ v => Val.noTrue v
  | _ => true
def Items.noTrue : Items → Bool
  | .nil => true
  | .absent r => Items.noTrue r
  | .cons v r => Val.noTrue v && Items.noTrue r
end

theorem boolean_false {U V : Rules} (hL : U.loose → V.loose) (c : Bytes) : boolean U false c → boolean V false c := by
  rintro (⟨o, rfl, h⟩ | ⟨h, h'⟩)
  · exact .inl ⟨o, rfl, h⟩
  · exact .inr ⟨hL h, h'⟩

mutual
theorem EncT_noTrue {U V : Rules} (R : Alts) (h2 : U.writesDefaults → V.writesDefaults) (hL : U.loose → V.loose) :
    ∀ (v : Val) (t : Ty) (bs : Bytes), Val.noTrue v = true → EncT U R t v bs → EncT V R t v bs
  | .octets b, t, bs => fun _ h => h
  | .int z, t, bs => fun _ ⟨g, r, e, e', h⟩ => ⟨g, r, e, e', tlv_mono (integer_mono hL z) h⟩
  | .bool b, t, bs => fun hn ⟨g, e, h⟩ => by
    cases b
    · exact ⟨g, e, tlv_mono (boolean_false hL) h⟩
    · cases hn
  | .null, t, bs => fun _ h => h
  | .seq fs, t, bs => fun hn ⟨g, cs, e, h⟩ => ⟨g, cs, e, tlv_mono (fun c => EncC_noTrue R h2 hL fs cs c hn) h⟩
  | .list vs, t, bs => fun hn ⟨g, e, e', h⟩ => ⟨g, e, e', tlv_mono (fun c => EncL_noTrue R h2 hL vs e c hn) h⟩
  | .choice n v, t, bs => by
    rintro hn (⟨g, i, e, h⟩ | ⟨alts, t', e1, e2, h⟩)
    · exact Or.inl ⟨g, i, e, tlv_mono (fun c => EncT_noTrue R h2 hL v i c hn) h⟩
    · exact Or.inr ⟨alts, t', e1, e2, EncT_noTrue R h2 hL v t' bs hn h⟩
theorem EncL_noTrue {U V : Rules} (R : Alts) (h2 : U.writesDefaults → V.writesDefaults) (hL : U.loose → V.loose) :
    ∀ (vs : Items) (e : Ty) (c : Bytes), Items.noTrue vs = true → EncL U R e vs c → EncL V R e vs c
  | .nil, e, c => by simp only [EncL]; exact fun _ => id
  | .absent _, e, c => by simp only [EncL]; exact fun _ => id
  | .cons v vs, e, c => fun hn ⟨a, b, e1, h3, h4⟩ => by
    simp only [Items.noTrue, Bool.and_eq_true] at hn
    exact ⟨a, b, e1, EncT_noTrue R h2 hL v e a hn.1 h3, EncL_noTrue R h2 hL vs e b hn.2 h4⟩
theorem EncC_noTrue {U V : Rules} (R : Alts) (h2 : U.writesDefaults → V.writesDefaults) (hL : U.loose → V.loose) :
    ∀ (fs : Items) (cs : Comps) (c : Bytes), Items.noTrue fs = true → EncC U R cs fs c → EncC V R cs fs c
  | .nil, cs, c => by cases cs <;> simp only [EncC] <;> exact fun _ => id
  | .absent r, cs, c => by
    cases cs with
    | nil => simp only [EncC]; exact fun _ => id
    | cons n k t cs => exact fun hn ⟨hk, h⟩ => ⟨hk, EncC_noTrue R h2 hL r cs c hn h⟩
  | .cons v r, cs, c => by
    cases cs with
    | nil => simp only [EncC]; exact fun _ => id
    | cons n k t cs =>
      rintro hn ⟨a, b, e, h, h'⟩
      simp only [Items.noTrue, Bool.and_eq_true] at hn
      refine ⟨a, b, e, ?_, EncC_noTrue R h2 hL r cs b hn.2 h'⟩
      rcases h with h | ⟨h3, h4⟩
      · exact Or.inl h
      · exact Or.inr ⟨fun x y => h2 (h3 x y), EncT_noTrue R h2 hL v t a hn.1 h4⟩
end

theorem tlv_inj {g : UInt8} (hg : g.toNat % 32 ≠ 31) {c c' bs : Bytes} (h : IsTlv g c bs) (h' : IsTlv g c' bs) : c = c' := by
  have a := header_ok hg h []
  have b := header_ok hg h' []
  rw [a] at b
  simp only [Res.ok.injEq, Prod.mk.injEq] at b
  exact b.2.1

/-- two encodings of the same value, each followed by something: if the octets are the same, so are the parts -/
theorem EncT_split {U V : Rules} (R : Alts) (hR : Alts.good R R = true) (hU : ∀ b, U.isTrue b → b ≠ 0) (hV : ∀ b, V.isTrue b → b ≠ 0) {v : Val} {t : Ty} (hg : Ty.good R t = true)
    {a a' b b' : Bytes} (h : EncT U R t v a) (h' : EncT V R t v a') (e : a ++ b = a' ++ b') : a = a' ∧ b = b' := by
  have e1 := decode_ok R hR v t a b (2 * (a.length + a'.length) + 1) hg (EncT_mono R hU (fun _ => trivial) (fun _ => trivial) v t a h) (by have := need_le t a; omega)
  have e2 := decode_ok R hR v t a' b' (2 * (a.length + a'.length) + 1) hg (EncT_mono R hV (fun _ => trivial) (fun _ => trivial) v t a' h') (by have := need_le t a'; omega)
  rw [e, e2] at e1
  simp only [Res.ok.injEq, Prod.mk.injEq, true_and] at e1
  subst e1
  exact ⟨List.append_cancel_right e, rfl⟩

mutual
/-- octets that encode a value under two sets of rules with different octets for TRUE: nothing in it is TRUE -/
theorem two_rules {U V : Rules} (R : Alts) (hR : Alts.good R R = true) (hU : ∀ b, U.isTrue b → b ≠ 0) (hV : ∀ b, V.isTrue b → b ≠ 0) (hd : ∀ b, U.isTrue b → ¬ V.isTrue b)
    (hw : ¬ (U.writesDefaults ∨ U.loose)) (hw' : ¬ (V.writesDefaults ∨ V.loose)) : ∀ (v : Val) (t : Ty) (bs : Bytes), Ty.good R t = true → EncT U R t v bs → EncT V R t v bs → Val.noTrue v = true
  | .octets b, t, bs => fun _ _ _ => rfl
  | .int z, t, bs => fun _ _ _ => rfl
  | .null, t, bs => fun _ _ _ => rfl
  | .bool b, t, bs => by
    rintro hg ⟨g, rfl, c, hb1, h⟩ ⟨g', e', c', hb2, h'⟩
    obtain ⟨o, rfl, ho⟩ := hb1.resolve_right (fun h => hw (.inr h.1))
    obtain ⟨o', rfl, ho'⟩ := hb2.resolve_right (fun h => hw' (.inr h.1))
    cases e'
    simp only [Ty.good, okTag, decide_eq_true_eq] at hg
    have := tlv_inj hg h h'
    simp only [List.cons.injEq, and_true] at this
    subst this
    cases b
    · rfl
    · exact absurd ho' (hd _ ho)
  | .seq fs, t, bs => by
    rintro hg ⟨g, cs, rfl, c, hc, h⟩ ⟨g', cs', e', c', hc', h'⟩
    cases e'
    simp only [Ty.good, okTag, Bool.and_eq_true, decide_eq_true_eq] at hg
    have := tlv_inj hg.1 h h'
    subst this
    exact two_rulesC R hR hU hV hd hw hw' fs cs c hg.2 hc hc'
  | .list vs, t, bs => by
    rintro hg ⟨g, e, rfl, c, hc, h⟩ ⟨g', e', e1, c', hc', h'⟩
    cases e1
    simp only [Ty.good, okTag, Bool.and_eq_true, decide_eq_true_eq] at hg
    have := tlv_inj hg.1 h h'
    subst this
    exact two_rulesL R hR hU hV hd hw hw' vs e c hg.2 hc hc'
  | .choice n v, t, bs => by
    rintro hg (⟨g, i, rfl, c, hc, h⟩ | ⟨alts, t', h1, h2, h3⟩) (⟨g', i', e', c', hc', h'⟩ | ⟨alts', t'', h1', h2', h3'⟩)
    · cases e'
      simp only [Ty.good, okTag, Bool.and_eq_true, decide_eq_true_eq] at hg
      have := tlv_inj hg.1 h h'
      subst this
      exact two_rules R hR hU hV hd hw hw' v i c hg.2 hc hc'
    · cases h1'
    · subst e'; cases h1
    · rw [h1] at h1'
      cases h1'
      rw [h2] at h2'
      cases h2'
      have ha : Alts.good R alts = true := by
        cases t <;> simp only [Ty.alts?] at h1 <;> try (cases h1; done)
        · cases h1; simpa [Ty.good] using hg
        · cases h1; exact hR
      obtain ⟨h4, _⟩ := byName_good R n t' alts ha h2
      exact two_rules R hR hU hV hd hw hw' v t' bs h4 h3 h3'
theorem two_rulesL {U V : Rules} (R : Alts) (hR : Alts.good R R = true) (hU : ∀ b, U.isTrue b → b ≠ 0) (hV : ∀ b, V.isTrue b → b ≠ 0) (hd : ∀ b, U.isTrue b → ¬ V.isTrue b)
    (hw : ¬ (U.writesDefaults ∨ U.loose)) (hw' : ¬ (V.writesDefaults ∨ V.loose)) : ∀ (vs : Items) (e : Ty) (c : Bytes), Ty.good R e = true → EncL U R e vs c → EncL V R e vs c → Items.noTrue vs = true
  | .nil, e, c => fun _ _ _ => rfl
  | .absent _, e, c => by intro _ h; simp only [EncL] at h
  | .cons v vs, e, c => by
    rintro hg ⟨a, b, rfl, h1, h2⟩ ⟨a', b', e1, h1', h2'⟩
    obtain ⟨rfl, rfl⟩ := EncT_split R hR hU hV hg h1 h1' e1
    simp only [Items.noTrue, Bool.and_eq_true]
    exact ⟨two_rules R hR hU hV hd hw hw' v e a hg h1 h1', two_rulesL R hR hU hV hd hw hw' vs e b hg h2 h2'⟩
theorem two_rulesC {U V : Rules} (R : Alts) (hR : Alts.good R R = true) (hU : ∀ b, U.isTrue b → b ≠ 0) (hV : ∀ b, V.isTrue b → b ≠ 0) (hd : ∀ b, U.isTrue b → ¬ V.isTrue b)
    (hw : ¬ (U.writesDefaults ∨ U.loose)) (hw' : ¬ (V.writesDefaults ∨ V.loose)) : ∀ (fs : Items) (cs : Comps) (c : Bytes), Comps.good R cs = true → EncC U R cs fs c → EncC V R cs fs c → Items.noTrue fs = true
  | .nil, cs, c => fun _ _ _ => rfl
  | .absent r, cs, c => by
    intro hg h h'
    cases cs with
    | nil => simp only [EncC] at h
    | cons n k t cs =>
      simp only [Comps.good, Bool.and_eq_true] at hg
      exact two_rulesC R hR hU hV hd hw hw' r cs c hg.1.2 h.2 h'.2
  | .cons v r, cs, c => by
    intro hg h h'
    cases cs with
    | nil => simp only [EncC] at h
    | cons n k t cs =>
      simp only [Comps.good, Bool.and_eq_true] at hg
      obtain ⟨a, b, rfl, h1, h2⟩ := h
      obtain ⟨a', b', e1, h1', h2'⟩ := h'
      simp only [Items.noTrue, Bool.and_eq_true]
      rcases h1 with ⟨hk, rfl, rfl⟩ | ⟨hk, h1⟩ <;> rcases h1' with ⟨hk', hv', rfl⟩ | ⟨hk', h1'⟩
      · cases e1
        exact ⟨rfl, two_rulesC R hR hU hV hd hw hw' r cs b hg.1.2 h2 h2'⟩
      · exact absurd (.inl (hk' hk rfl)) hw'
      · exact absurd (.inl (hk hk' hv')) hw
      · obtain ⟨rfl, rfl⟩ := EncT_split R hR hU hV hg.1.1 h1 h1' e1
        exact ⟨two_rules R hR hU hV hd hw hw' v t a hg.1.1 h1 h1', two_rulesC R hR hU hV hd hw hw' r cs b hg.1.2 h2 h2'⟩
end

end Asn1
end Laurelin
