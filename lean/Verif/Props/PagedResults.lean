import Verif.Spec.PagedResults
import Verif.Lemmas.Codec
import Verif.Lemmas.PDict
import Verif.Props.Controls
/-! C58: paged results. -/
namespace Laurelin.Props
open Laurelin Codec Ber Paged Spec.PagedS
namespace PagedP

theorem beNat_append (a b : Bytes) : beNat (a ++ b) = beNat a * 256 ^ b.length + beNat b := by
  have key : ∀ (b : Bytes) (x : Nat), b.foldl (fun a b => a * 256 + b.toNat) x = x * 256 ^ b.length + beNat b := by
    intro b
    induction b with
    | nil => intro x; simp [beNat]
    | cons c b ih =>
      intro x
      have h0 := ih (0 * 256 + c.toNat)
      have h1 : beNat (c :: b) = c.toNat * 256 ^ b.length + beNat b := by
        rw [beNat, List.foldl_cons, h0]; simp
      rw [h1, List.foldl_cons, ih, List.length_cons, Nat.pow_succ, Nat.add_mul]
      have : x * 256 * 256 ^ b.length = x * (256 ^ b.length * 256) := by rw [Nat.mul_assoc, Nat.mul_comm 256]
      omega
  rw [beNat, List.foldl_append, key]; rfl

theorem unsigned_beNat (bs : Bytes) (n : Nat) (h : Unsigned bs n) : n = beNat bs := by
  induction h with
  | nil => rfl
  | snoc b _ ih => rw [beNat_append, ← ih]; simp [beNat]

theorem beNat_unsigned (bs : Bytes) : Unsigned bs (beNat bs) := by
  generalize h : bs.length = k
  induction k generalizing bs with
  | zero => have : bs = [] := by simpa using h
            subst this; exact .nil
  | succ k ih =>
    rcases List.eq_nil_or_concat bs with rfl | ⟨bs', b, e⟩
    · simp at h
    · rw [List.concat_eq_append] at e
      subst e
      have := ih bs' (by simpa using h)
      rw [beNat_append]
      simpa [beNat] using this.snoc b

theorem beNat_digits (f : Nat) : ∀ (n : Nat) (acc : Bytes), n ≤ f → beNat (digits f n acc) = n * 256 ^ acc.length + beNat acc := by
  induction f with
  | zero => intro n acc h; have : n = 0 := by omega
            subst this; simp [digits]
  | succ f ih =>
    intro n acc h
    simp only [digits]
    split
    · rename_i e; subst e; simp
    · rename_i e
      rw [ih _ _ (by omega)]
      have h1 : beNat (byte (n % 256) :: acc) = (n % 256) * 256 ^ acc.length + beNat acc := by
        rw [← List.singleton_append, beNat_append]
        simp [beNat, byte_toNat (n % 256) (by omega)]
      rw [h1, List.length_cons, Nat.pow_succ, ← Nat.add_assoc]
      congr 1
      rw [Nat.mul_comm (256 ^ acc.length) 256, ← Nat.mul_assoc, ← Nat.add_mul]
      congr 1
      omega

theorem beNat_natBytes (n : Nat) : beNat (natBytes n) = n := by
  rw [natBytes, beNat_digits n n [] (Nat.le_refl _)]; simp [beNat]

theorem natBytes_ne {n : Nat} (h : n ≠ 0) : natBytes n ≠ [] := by
  intro e
  have := beNat_natBytes n
  rw [e] at this
  exact h this.symm

theorem lenBytes_ok {n : Nat} {l : Bytes} (h : lenBytes n = some l) : IsLen n l := by
  unfold lenBytes at h
  split at h
  · rename_i h1
    cases h
    have := IsLen.short (byte n) (by rw [byte_toNat _ (by omega)]; exact h1)
    rwa [byte_toNat _ (by omega)] at this
  · split at h
    · cases h
    · rename_i h1 h2
      cases h
      refine .long _ (natBytes_ne (by omega)) (by omega) (byte_toNat _ (by omega)) ?_
      have := beNat_unsigned (natBytes n)
      rwa [beNat_natBytes] at this

theorem tlv_ok {tag : UInt8} {c b : Bytes} (h : tlv tag c = some b) : IsTlv tag c b := by
  unfold tlv at h
  cases hl : lenBytes c.length with
  | none => rw [hl] at h; cases h
  | some l => rw [hl] at h; cases h; exact ⟨l, lenBytes_ok hl, by simp⟩

theorem readLen_ok {n : Nat} {l : Bytes} (h : IsLen n l) (r : Bytes) : readLen (l ++ r) = some (n, r) := by
  cases h with
  | short b hb => simp [readLen, hb]
  | @long _ bs b h1 h2 h3 h4 =>
    have : 0 < bs.length := List.length_pos_iff.2 h1
    have e : b.toNat - 128 = bs.length := by omega
    have h5 : ¬ b.toNat < 128 := by omega
    have h6 : ¬ b.toNat = 128 := by omega
    simp only [readLen, List.cons_append, h5, h6, if_false, e]
    rw [if_neg (by simp)]
    simp [unsigned_beNat _ _ h4]

theorem readTlv_ok {tag : UInt8} {c b : Bytes} (h : IsTlv tag c b) (r : Bytes) : readTlv tag (b ++ r) = some (c, r) := by
  obtain ⟨l, hl, rfl⟩ := h
  have : readLen (l ++ (c ++ r)) = some (c.length, c ++ r) := readLen_ok hl _
  simp [readTlv, this]

theorem intOf_ok {z : Int} {bs : Bytes} (h : IsInt z bs) : intOf bs = z := by
  obtain ⟨b, rest, n, rfl, hn, rfl⟩ := h
  rw [unsigned_beNat _ _ hn]
  simp [intOf]

theorem intBytes_ok (n : Nat) : IsInt n (intBytes n) := by
  have h := beNat_natBytes n
  unfold intBytes
  split
  · rename_i e
    rw [e] at h
    refine ⟨0, [], 0, rfl, beNat_unsigned [0], ?_⟩
    simp [← h, beNat]
  · rename_i b bs e
    rw [e] at h
    split
    · rename_i hb
      exact ⟨b, bs, _, rfl, beNat_unsigned _, by simp [hb, h]⟩
    · refine ⟨0, b :: bs, _, rfl, beNat_unsigned _, ?_⟩
      have : beNat (0 :: b :: bs) = beNat (b :: bs) := by
        rw [← List.singleton_append, beNat_append]; simp [beNat]
      simp [this, h]

theorem decode_ok {n : Int} {c v : Bytes} (h : IsValue n c v) (r : Bytes) : decodeValue (v ++ r) = some (n, c, r) := by
  obtain ⟨h1, h2, ib, i, o, h3, h4, h5, h6⟩ := h
  have e2 : readTlv 0x04 o = some (c, []) := by simpa using readTlv_ok h5 []
  have hr : ¬ (n < 0 ∨ n > maxInt) := by simp only [maxInt]; omega
  simp only [decodeValue, readTlv_ok h6 r, readTlv_ok h4 o, e2, intOf_ok h3]
  rw [if_neg hr]

theorem encode_ok {cs : Charset} {n : Int} {a : CookieArg} {v : Bytes} (h : encodeValue cs n a = .ok v) :
    ∃ c, cookieBytes cs a = .ok c ∧ IsValue n c v := by
  unfold encodeValue at h
  split at h
  · cases h
  · rename_i hr
    split at h
    · cases h
    · rename_i c hc
      split at h
      · rename_i i o hi ho
        split at h
        · rename_i b hb
          cases h
          simp only [maxInt] at hr
          refine ⟨c, hc, by omega, by omega, intBytes n.toNat, i, o, ?_, tlv_ok hi, tlv_ok ho, tlv_ok hb⟩
          have := intBytes_ok n.toNat
          rwa [Int.toNat_of_nonneg (by omega)] at this
        · cases h
      · cases h

/-! charsets -/

theorem decByte_enc (lim : Nat) (hl : lim ≤ 256) (s : Str) : ∀ b, encByte lim s = some b → decByte lim b = some s := by
  induction s with
  | nil => intro b h; cases h; rfl
  | cons c s ih =>
    intro b h
    simp only [encByte] at h
    split at h
    · rename_i hc
      cases he : encByte lim s with
      | none => rw [he] at h; cases h
      | some b' =>
        rw [he] at h; cases h
        simp [decByte, byte_toNat _ (show c.toNat < 256 by omega), hc, ih b' he]
    · cases h

theorem encByte_dec (lim : Nat) (hl : lim ≤ 256) (b : Bytes) : ∀ s, decByte lim b = some s → encByte lim s = some b := by
  induction b with
  | nil => intro s h; cases h; rfl
  | cons c b ih =>
    intro s h
    simp only [decByte] at h
    split at h
    · rename_i hc
      cases he : decByte lim b with
      | none => rw [he] at h; cases h
      | some s' =>
        rw [he] at h; cases h
        have : (Char.ofNat c.toNat).toNat = c.toNat := char_toNat _ (.inl (by omega))
        simp [encByte, this, hc, ih s' he, byte_of_toNat]
    · cases h

theorem decByte_latin1 (b : Bytes) : ∃ s, decByte 256 b = some s := by
  induction b with
  | nil => exact ⟨[], rfl⟩
  | cons c b ih =>
    obtain ⟨s, h⟩ := ih
    exact ⟨Char.ofNat c.toNat :: s, by simp [decByte, h, c.toNat_lt]⟩

theorem dec_enc (cs : Charset) (s : Str) (b : Bytes) (h : cs.enc s = some b) : cs.dec b = some s := by
  cases cs with
  | ascii => exact decByte_enc 128 (by omega) s b h
  | latin1 => exact decByte_enc 256 (by omega) s b h
  | utf8 => simp only [Charset.enc, Option.some.injEq] at h; subst h; exact utf8_round_trip s

theorem enc_dec (cs : Charset) (b : Bytes) (s : Str) (h : cs.dec b = some s) : cs.enc s = some b := by
  cases cs with
  | ascii => exact encByte_dec 128 (by omega) b s h
  | latin1 => exact encByte_dec 256 (by omega) b s h
  | utf8 => simp only [Charset.enc, Option.some.injEq]; exact utf8_dec_enc b s h

theorem dec_nil (cs : Charset) (s : Str) (h : cs.dec [] = some s) : s = [] := by
  have := enc_dec cs [] s h
  cases s with
  | nil => rfl
  | cons c s =>
    cases cs with
    | utf8 =>
      simp only [Charset.enc, Option.some.injEq] at this
      have := congrArg utf8Dec this
      rw [utf8_round_trip] at this
      have h2 : utf8Dec [] = some [] := by rw [utf8Dec.eq_def]
      rw [h2] at this; cases this
    | ascii =>
      simp only [Charset.enc, encByte] at this
      split at this
      · cases hh : encByte 128 s with
        | none => rw [hh] at this; cases this
        | some x => rw [hh] at this; cases this
      · cases this
    | latin1 =>
      simp only [Charset.enc, encByte] at this
      split at this
      · cases hh : encByte 256 s with
        | none => rw [hh] at this; cases this
        | some x => rw [hh] at this; cases this
      · cases this

/-- a length as the reader takes it: also the reserved first octet 255 (X.690 8.1.3.5 c) forbids it), i.e. 127 octets -/
inductive ReadLen : Nat → Bytes → Prop
  | std {n l} : IsLen n l → ReadLen n l
  | octets127 {n bs} : bs.length = 127 → Unsigned bs n → ReadLen n (255 :: bs)

def ReadTlv (tag : UInt8) (content bytes : Bytes) : Prop := ∃ l, ReadLen content.length l ∧ bytes = [tag] ++ l ++ content

theorem readLen_inv {v r : Bytes} {n : Nat} (h : readLen v = some (n, r)) : ∃ l, ReadLen n l ∧ v = l ++ r := by
  cases v with
  | nil => cases h
  | cons b t =>
    simp only [readLen] at h
    split at h
    · rename_i hb; cases h; exact ⟨[b], .std (.short b hb), rfl⟩
    · split at h
      · cases h
      · split at h
        · cases h
        · rename_i h1 h2 h3
          simp only [Option.some.injEq, Prod.mk.injEq] at h
          obtain ⟨rfl, rfl⟩ := h
          have hl : (t.take (b.toNat - 128)).length = b.toNat - 128 := by rw [List.length_take]; omega
          refine ⟨b :: t.take (b.toNat - 128), ?_, by simp⟩
          have hb := b.toNat_lt
          by_cases h127 : b.toNat = 255
          · have : b = 255 := UInt8.toNat_inj.1 h127
            subst this
            exact .octets127 (by rw [hl]; rfl) (beNat_unsigned _)
          · refine .std (.long b ?_ (by rw [hl]; omega) (by rw [hl]; omega) (beNat_unsigned _))
            intro e
            rw [e] at hl
            simp at hl
            omega

theorem readTlv_inv {tag : UInt8} {v c r : Bytes} (h : readTlv tag v = some (c, r)) : ∃ b, ReadTlv tag c b ∧ v = b ++ r := by
  cases v with
  | nil => cases h
  | cons t q =>
    simp only [readTlv] at h
    split at h
    · rename_i ht
      subst ht
      cases hl : readLen q with
      | none => rw [hl] at h; cases h
      | some nr =>
        obtain ⟨n, s⟩ := nr
        rw [hl] at h
        simp only at h
        split at h
        · cases h
        · rename_i hn
          cases h
          obtain ⟨l, h1, rfl⟩ := readLen_inv hl
          refine ⟨t :: (l ++ s.take n), ⟨l, ?_, by simp⟩, by simp⟩
          rw [List.length_take, Nat.min_eq_left (by omega)]
          exact h1
    · cases h

end PagedP
open PagedP

/-- **C58.** `paged=n` and `paged=(n, '')` send the same. -/
theorem c58_no_cookie (cs : Charset) (n : Int) : prepare cs (.int n) = prepare cs (.pair n (.text [])) := rfl

/-- **C58.** What is sent is an encoding of exactly the size and cookie given: any standard reading of it gives them back, and nothing else. -/
theorem c58_sent (cs : Charset) (n : Int) (a : CookieArg) (v : Bytes) (h : prepare cs (.pair n a) = .ok v) :
    ∃ c, cookieBytes cs a = .ok c ∧ IsValue n c v ∧ ∀ n' c', IsValue n' c' v → n' = n ∧ c' = c := by
  obtain ⟨c, h1, h2⟩ := encode_ok h
  refine ⟨c, h1, h2, fun n' c' h' => ?_⟩
  have e1 := decode_ok h2 []
  rw [decode_ok h' []] at e1
  simp only [Option.some.injEq, Prod.mk.injEq, and_true] at e1
  exact e1

/-- **C58.** A request is refused only for a size outside 0..2147483647, for text the character set lacks, or for a cookie too long for any BER
length (never below 256^126 octets). -/
theorem c58_accepted (cs : Charset) (n : Int) (a : CookieArg) (c : Bytes) (h0 : 0 ≤ n) (h1 : n ≤ 2147483647) (hc : cookieBytes cs a = .ok c)
    (hl : c.length < 2 ^ 64) : ∃ v, prepare cs (.pair n a) = .ok v := by
  have digits_len : ∀ f m acc k, m < 256 ^ k → (digits f m acc).length ≤ acc.length + k := by
    intro f
    induction f with
    | zero => intro m acc k _; simp [digits]
    | succ f ih =>
      intro m acc k hm
      simp only [digits]
      split
      · omega
      · cases k with
        | zero => simp at hm; omega
        | succ k =>
          have := ih (m / 256) (byte (m % 256) :: acc) k (by rw [Nat.pow_succ] at hm; exact Nat.div_lt_of_lt_mul (by omega))
          simp at this; omega
  have short : ∀ m : Nat, m < 256 ^ 20 → ∃ l, lenBytes m = some l ∧ l.length ≤ 21 := by
    intro m hm
    have := digits_len m m [] 20 hm
    have this : (natBytes m).length ≤ 20 := by simpa [natBytes] using this
    unfold lenBytes
    split
    · exact ⟨_, rfl, by simp⟩
    · rw [if_neg (by omega)]
      exact ⟨_, rfl, by simp; omega⟩
  have tl : ∀ (t : UInt8) (x : Bytes), x.length < 256 ^ 20 → ∃ b, tlv t x = some b ∧ b.length ≤ x.length + 22 := by
    intro t x hx
    obtain ⟨l, h1, h2⟩ := short _ hx
    exact ⟨_, by rw [tlv, h1]; rfl, by simp; omega⟩
  have hi : (intBytes n.toNat).length ≤ 5 := by
    have := digits_len n.toNat n.toNat [] 4 (by omega)
    unfold intBytes natBytes
    revert this
    cases digits n.toNat n.toNat [] with
    | nil => simp
    | cons b bs => simp only [List.length_cons, List.length_nil]; intro h; split <;> simp <;> omega
  obtain ⟨i, i1, i2⟩ := tl 0x02 _ (show (intBytes n.toNat).length < 256 ^ 20 by omega)
  obtain ⟨o, o1, o2⟩ := tl 0x04 c (by omega)
  obtain ⟨b, b1, _⟩ := tl 0x30 (i ++ o) (by simp; omega)
  refine ⟨b, ?_⟩
  have hr : ¬ (n < 0 ∨ n > maxInt) := by simp only [maxInt]; omega
  simp only [prepare, encodeValue, if_neg hr, hc, i1, o1, b1]

/-- **C58.** Anything but an integer or a pair is refused, and so is a size that is out of range; nothing is sent. -/
theorem c58_refused (cs : Charset) : prepare cs .other = .error .typeError ∧ prepare cs .tupleOther = .error .valueError ∧
    ∀ n a, n < 0 ∨ n > 2147483647 → prepare cs (.pair n a) = .error .asn1Error := by
  refine ⟨rfl, rfl, fun n a h => ?_⟩
  have h' : n < 0 ∨ n > maxInt := h
  simp [prepare, encodeValue, h']

/-- **C58.** Whatever encoding the server chooses for its cookie, the handle shows exactly that cookie as text — if it is text — and passing it back
sends the same octets. -/
theorem c58_cookie (cs : Charset) (est : Int) (c v : Bytes) (h : IsValue est c v) (s : Str) (hs : cs.dec c = some s) :
    handle cs v = .ok s ∧ cookieBytes cs (.text s) = .ok c := by
  have := decode_ok h []
  rw [List.append_nil] at this
  refine ⟨by simp [handle, this, cookieText, hs], by simp [cookieBytes, enc_dec cs c s hs]⟩

/-- **C58.** With a character set of all octets that is every cookie. -/
theorem c58_cookie_latin1 (est : Int) (c v : Bytes) (h : IsValue est c v) :
    ∃ s, handle .latin1 v = .ok s ∧ cookieBytes .latin1 (.text s) = .ok c := by
  obtain ⟨s, hs⟩ := decByte_latin1 c
  exact ⟨s, c58_cookie .latin1 est c v h s hs⟩

/-- **C58.** Octets after the control value are refused. -/
theorem c58_leftover (cs : Charset) (est : Int) (c v r : Bytes) (h : IsValue est c v) (hr : r ≠ []) : handle cs (v ++ r) = .error .ldapError := by
  simp [handle, decode_ok h r, hr]

/-- **C58, finding.** A cookie that does not decode is shown as the empty string, which means "no more pages". -/
theorem c58_cookie_lost (cs : Charset) (est : Int) (c v : Bytes) (h : IsValue est c v) (hs : cs.dec c = none) : handle cs v = .ok [] := by
  have := decode_ok h []
  rw [List.append_nil] at this
  simp [handle, this, cookieText, hs]

/-- **C58.** Following cookies until they are empty gives the server's pages, in order and complete, when its cookies are text. -/
theorem c58_follow_partial {α : Type} (cs : Charset) (page : Bytes → List α) (next : Bytes → Bytes) (srv : Bytes → List α × Bytes)
    (hs : Pages page next srv) (n : Int) (h0 : 0 ≤ n) (h1 : n ≤ 2147483647) (l : List α) (cookies : List Bytes)
    (hch : Chain page next [] l cookies) (hck : ∀ c ∈ cookies, (∃ s, cs.dec c = some s) ∧ c.length < 2 ^ 64) :
    follow cs srv n (cookies.length + 1) (.text []) = .ok l := by
  have main : ∀ c l cookies, Chain page next c l cookies → ∀ a, cookieBytes cs a = .ok c → c.length < 2 ^ 64 →
      (∀ c ∈ cookies, (∃ s, cs.dec c = some s) ∧ c.length < 2 ^ 64) → follow cs srv n (cookies.length + 1) a = .ok l := by
    intro c l cookies hch
    induction hch with
    | @last c hn =>
      intro a ha hl _
      obtain ⟨v, hv⟩ := c58_accepted cs n a c h0 h1 ha hl
      obtain ⟨c', hc', hval, _⟩ := c58_sent cs n a v hv
      rw [ha] at hc'; cases hc'
      obtain ⟨e1, est, e2⟩ := hs n c v hval
      have hh : handle cs (srv v).2 = .ok [] := by
        rw [hn] at e2
        cases hd : cs.dec [] with
        | none => exact c58_cookie_lost cs est _ _ e2 hd
        | some s =>
          have := (c58_cookie cs est _ _ e2 s hd).1
          rwa [dec_nil cs s hd] at this
      simp only [follow, hv, hh, e1]
    | @more c l cks hn hch ih =>
      intro a ha hl hck
      obtain ⟨v, hv⟩ := c58_accepted cs n a c h0 h1 ha hl
      obtain ⟨c', hc', hval, _⟩ := c58_sent cs n a v hv
      rw [ha] at hc'; cases hc'
      obtain ⟨e1, est, e2⟩ := hs n c v hval
      obtain ⟨⟨s, hd⟩, hlen⟩ := hck (next c) (by simp)
      obtain ⟨g1, g2⟩ := c58_cookie cs est _ _ e2 s hd
      cases s with
      | nil =>
        have : cs.enc [] = some (next c) := enc_dec cs _ _ hd
        have h3 : cs.enc [] = some [] := by cases cs <;> rfl
        rw [h3] at this; exact absurd (Option.some.inj this).symm hn
      | cons x s =>
        have := ih (.text (x :: s)) g2 hlen (fun c' hc' => hck c' (by simp [hc']))
        rw [List.length_cons]
        rw [follow]
        simp only [hv, g1, this, e1]
  exact main [] l cookies hch (.text []) (by cases cs <;> rfl) (by simp) hck

/-- **C58.** … and always with a character set of all octets. -/
theorem c58_follow_latin1 {α : Type} (page : Bytes → List α) (next : Bytes → Bytes) (srv : Bytes → List α × Bytes)
    (hs : Pages page next srv) (n : Int) (h0 : 0 ≤ n) (h1 : n ≤ 2147483647) (l : List α) (cookies : List Bytes)
    (hch : Chain page next [] l cookies) (hck : ∀ c ∈ cookies, c.length < 2 ^ 64) :
    follow .latin1 srv n (cookies.length + 1) (.text []) = .ok l :=
  c58_follow_partial .latin1 page next srv hs n h0 h1 l cookies hch (fun c hc => ⟨decByte_latin1 c, hck c hc⟩)

/-- **C58, finding.** When the first cookie does not decode, the loop ends after the first page without an error, although there are more. -/
theorem c58_pages_lost {α : Type} (cs : Charset) (page : Bytes → List α) (next : Bytes → Bytes) (srv : Bytes → List α × Bytes)
    (hs : Pages page next srv) (n : Int) (h0 : 0 ≤ n) (h1 : n ≤ 2147483647) (hd : cs.dec (next []) = none) (fuel : Nat) :
    follow cs srv n (fuel + 1) (.text []) = .ok (page []) := by
  have ha : cookieBytes cs (.text []) = .ok [] := by cases cs <;> rfl
  obtain ⟨v, hv⟩ := c58_accepted cs n (.text []) [] h0 h1 ha (by simp)
  obtain ⟨c', hc', hval, _⟩ := c58_sent cs n _ v hv
  rw [ha] at hc'; cases hc'
  obtain ⟨e1, est, e2⟩ := hs n [] v hval
  have hh := c58_cookie_lost cs est _ _ e2 hd
  simp only [follow, hv, hh, e1]

/-- **C58.** The control is attached to searches, under the criticality asked for, and its answer is shown on the handle as `page_cookie`. -/
theorem c58_attribute (cs : Charset) (r : Controls.Reg PageArg Str) (hr : r.resp.get? Paged.oid = some (cls cs)) (t : Controls.Target Str)
    (ht : t.has (str "page_cookie") = false) (est : Int) (c v : Bytes) (h : IsValue est c v) (s : Str) (hs : cs.dec c = some s) (crit : Bool) :
    Controls.handleResponse r t [⟨Paged.oid, crit, some (v.map UInt8.toNat)⟩] =
      (.ok (), { t with got := t.got.set (str "page_cookie") s }) := by
  have e : (v.map UInt8.toNat).map byte = v := by
    rw [List.map_map]
    conv => rhs; rw [← List.map_id v]
    exact List.map_congr_left (fun b _ => by simp [byte])
  have h1 := (c58_cookie cs est c v h s hs).1
  simp only [Controls.handleResponse, hr]
  simp only [cls, e, h1, ht]
  simp

/-- **C58, the converse.** A value is only taken for a page cookie when it is a SEQUENCE of an INTEGER in range and an OCTET STRING, with nothing else inside or behind, and
the cookie shown is that octet string's text. (The reader also takes an INTEGER without contents, as 0.) -/
theorem c58_decoded (cs : Charset) (v : Bytes) (s : Str) (h : handle cs v = .ok s) :
    ∃ z ib c i o, (IsInt z ib ∨ (z = 0 ∧ ib = [])) ∧ 0 ≤ z ∧ z ≤ 2147483647 ∧ ReadTlv 0x02 ib i ∧ ReadTlv 0x04 c o ∧ ReadTlv 0x30 (i ++ o) v ∧
      (cs.dec c = some s ∨ (cs.dec c = none ∧ s = [])) := by
  unfold handle at h
  cases hd : decodeValue v with
  | none => rw [hd] at h; cases h
  | some x =>
    obtain ⟨z, c, left⟩ := x
    rw [hd] at h
    simp only at h
    split at h
    · cases h
    · rename_i hl
      have hl : left = [] := by simpa using hl
      subst hl
      have hs : s = cookieText cs c := by cases h; rfl
      unfold decodeValue at hd
      cases h1 : readTlv 0x30 v with
      | none => rw [h1] at hd; cases hd
      | some x1 =>
        obtain ⟨content, left⟩ := x1
        rw [h1] at hd
        simp only at hd
        cases h2 : readTlv 0x02 content with
        | none => rw [h2] at hd; cases hd
        | some x2 =>
          obtain ⟨ib, r⟩ := x2
          rw [h2] at hd
          simp only at hd
          split at hd
          · rename_i cookie h3
            split at hd
            · cases hd
            · rename_i hr
              cases hd
              obtain ⟨b1, t1, e1⟩ := readTlv_inv h1
              obtain ⟨b2, t2, e2⟩ := readTlv_inv h2
              obtain ⟨b3, t3, e3⟩ := readTlv_inv h3
              rw [List.append_nil] at e1 e3
              subst e1 e3 e2
              simp only [maxInt, not_or, Int.not_lt] at hr
              refine ⟨intOf ib, ib, c, b2, _, ?_, by omega, by omega, t2, t3, t1, ?_⟩
              · cases ib with
                | nil => exact .inr ⟨rfl, rfl⟩
                | cons b rest => exact .inl ⟨b, rest, _, rfl, beNat_unsigned _, by simp [intOf]⟩
              · rw [hs, cookieText]
                cases hc : cs.dec c with
                | none => exact .inr ⟨rfl, rfl⟩
                | some t => exact .inl rfl
          · cases hd

/-- **C58.** Registering the extension's control, if it succeeds, makes `paged` its keyword and its OID lead to it in both directions. -/
theorem c58_registered (cs : Charset) (r : Controls.Reg PageArg Str) (h : (r.register (cls cs)).1 = .ok ()) :
    (r.register (cls cs)).2.byKwd.get? (str "paged") = some (cls cs) ∧ (r.register (cls cs)).2.getControl (str "1.2.840.113556.1.4.319") = .ok (cls cs) ∧
    (r.register (cls cs)).2.resp.get? (str "1.2.840.113556.1.4.319") = some (cls cs) := by
  obtain ⟨h1, h2⟩ := c61_found r (cls cs) h
  have h3 := h1 (by simp [cls])
  exact ⟨h3.1, h3.2, h2 (by simp [cls])⟩

/-- **C58.** Once the extension is registered, `paged` given to a search attaches one control with the paged results OID, the criticality asked for and the value described above; given to any
other operation it raises and nothing is attached. -/
theorem c58_keyword (cs : Charset) (r : Controls.Reg PageArg Str) (hg : r.byKwd.get? (str "paged") = some (cls cs)) (kv : Controls.Kwd PageArg) (sup : List Str)
    (dflt final : Bool) (op : Str) :
    let res := (Controls.processKwds r op [(str "paged", kv)] sup dflt final).1
    (op ≠ str "search" → res = .error .ldapError) ∧
    (op = str "search" → Spec.wantedCriticality dflt kv = true → Paged.oid ∉ sup → res = .error .ldapSupport) ∧
    (op = str "search" → (Spec.wantedCriticality dflt kv = true → Paged.oid ∈ sup) → ∀ b, prepare cs (Spec.kwdValue kv) = .ok b → b ≠ [] →
      res = .ok (some [⟨Paged.oid, Spec.wantedCriticality dflt kv, some (b.map UInt8.toNat)⟩])) := by
  intro res
  have hm : (cls cs).method.has op = decide (op = str "search") := by
    rw [Bool.eq_iff_iff]
    simp [cls, Controls.Methods.has]
  have he : (cls cs).requestOid = Paged.oid := rfl
  simp only [res, Controls.processKwds, PDict.keys, List.map_cons, List.map_nil, Controls.processLoop, hg, hm, PDict.get?, if_true, he, PDict.erase]
  refine ⟨?_, ?_, ?_⟩
  · intro h; simp [h]
  · intro h hc hs
    subst h
    rw [Ctl.unwrap_eq]
    simp [hc, hs]
  · intro h hc b hb hne
    subst h
    rw [Ctl.unwrap_eq]
    have h1 : (Spec.wantedCriticality dflt kv && !sup.contains Paged.oid) = false := by
      cases hw : Spec.wantedCriticality dflt kv with
      | false => rfl
      | true => simp [hc hw]
    have h2 : (cls cs).prepare (Spec.kwdValue kv) = .ok (b.map UInt8.toNat) := by simp [cls, hb]
    simp only [h1, h2, Controls.basePrepare]
    simp [hne]

/-- registering the extension's control gives such a registry -/
example : (({} : Controls.Reg PageArg Str).register (cls .utf8)).1 = .ok () ∧
    (({} : Controls.Reg PageArg Str).register (cls .utf8)).2.byKwd.keys = [str "paged"] := by
  refine ⟨?_, ?_⟩ <;> rfl

/-! concrete values -/

/-- a server with two pages -/
def twoPage (c : Bytes) : List Nat := if c = [] then [1, 2] else [3]
def twoNext (c : Bytes) : Bytes := if c = [] then [97] else []
def twoSrv (v : Bytes) : List Nat × Bytes :=
  match decodeValue v with
  | some (_, c, _) => (twoPage c, match encodeValue .ascii 3 (.bytes (twoNext c)) with | .ok b => b | .error _ => [])
  | none => ([], [])

theorem twoSrv_pages : Pages twoPage twoNext twoSrv := by
  intro n c v h
  have e := decode_ok h []
  rw [List.append_nil] at e
  have hl : (twoNext c).length < 2 ^ 64 := by unfold twoNext; split <;> simp
  obtain ⟨b, hb⟩ := c58_accepted .ascii 3 (.bytes (twoNext c)) (twoNext c) (by omega) (by omega) rfl hl
  obtain ⟨c', hc', hval, _⟩ := c58_sent .ascii 3 _ b hb
  have hc'' : twoNext c = c' := by simpa [cookieBytes] using hc'
  have hb' : encodeValue .ascii 3 (.bytes (twoNext c)) = .ok b := hb
  have hsrv : twoSrv v = (twoPage c, b) := by simp only [twoSrv, e, hb']
  rw [hsrv]
  exact ⟨rfl, 3, hc'' ▸ hval⟩

example : follow .ascii twoSrv 2 2 (.text []) = .ok [1, 2, 3] :=
  c58_follow_partial .ascii twoPage twoNext twoSrv twoSrv_pages 2 (by omega) (by omega) [1, 2, 3] [[97]]
    (.more (by decide) (.last (c := [97]) (by decide))) (by
      intro c hc
      have : c = [97] := by simpa using hc
      subst this
      exact ⟨⟨str "a", by decide⟩, by decide⟩)

/-- the control value of `paged=10`: 30 05 02 01 0A 04 00 -/
example : prepare .ascii (.int 10) = .ok [0x30, 5, 2, 1, 10, 4, 0] := by decide +kernel
example : prepare .ascii (.pair 200 (.text (str "ab"))) = .ok [0x30, 8, 2, 2, 0, 200, 4, 2, 97, 98] := by decide +kernel
example : handle .ascii [0x30, 7, 2, 1, 0, 4, 2, 97, 98] = .ok (str "ab") := by decide +kernel
/-- a long-form length is read as well -/
example : handle .ascii [0x30, 0x81, 7, 2, 1, 0, 4, 2, 97, 98] = .ok (str "ab") := by decide +kernel
/-- a binary cookie under ASCII is lost -/
example : handle .ascii [0x30, 6, 2, 1, 0, 4, 1, 0x80] = .ok [] := by decide +kernel
example : handle .latin1 [0x30, 6, 2, 1, 0, 4, 1, 0x80] = .ok [Char.ofNat 0x80] := by decide +kernel

end Laurelin.Props
