import Verif.Model.Codec
/-! Round trips of UTF-8 and base64. -/
namespace Laurelin.Codec

theorem byte_toNat (n : Nat) (h : n < 256) : (byte n).toNat = n := by
  simp only [byte, UInt8.toNat_ofNat']; omega

theorem byte_of_toNat (b : UInt8) : byte b.toNat = b := by simp [byte]

theorem ofNat_toNat (c : Char) : Char.ofNat c.toNat = c := Char.ofNat_toNat c

theorem char_valid (c : Char) : c.toNat < 0xD800 ∨ (0xDFFF < c.toNat ∧ c.toNat < 0x110000) := c.valid

theorem utf8Dec_char (c : Char) (t : Bytes) : utf8Dec (utf8Char c ++ t) = (utf8Dec t).map (c :: ·) := by
  have hv := char_valid c
  have hc := ofNat_toNat c
  generalize hn : c.toNat = n at *
  unfold utf8Char
  simp only [hn]
  split
  · rename_i h
    rw [List.singleton_append, utf8Dec.eq_def]
    simp only [byte_toNat n (by omega), h, if_true, hc]
  · split
    · have h1 : (byte (0xC0 + n / 64)).toNat = 0xC0 + n / 64 := byte_toNat _ (by omega)
      have h2 : (byte (0x80 + n % 64)).toNat = 0x80 + n % 64 := byte_toNat _ (by omega)
      rw [List.cons_append, List.singleton_append, utf8Dec.eq_def]
      have e : (192 + n / 64 - 192) * 64 + (128 + n % 64 - 128) = n := by omega
      simp only [h1, h2, isCont]
      rw [if_neg (by omega)]
      have k : (!(Nat.ble 128 (128 + n % 64) && Nat.blt (128 + n % 64) 192)) = false := by
        simp [Nat.ble_eq, Nat.blt_eq]; omega
      simp only [k, Bool.false_eq_true, if_false]
      rw [if_pos (by omega), e, hc]
    · split
      · have h1 : (byte (0xE0 + n / 4096)).toNat = 0xE0 + n / 4096 := byte_toNat _ (by omega)
        have h2 : (byte (0x80 + n / 64 % 64)).toNat = 0x80 + n / 64 % 64 := byte_toNat _ (by omega)
        have h3 : (byte (0x80 + n % 64)).toNat = 0x80 + n % 64 := byte_toNat _ (by omega)
        rw [List.cons_append, List.cons_append, List.singleton_append, utf8Dec.eq_def]
        have e : (224 + n / 4096 - 224) * 4096 + (128 + n / 64 % 64 - 128) * 64 + (128 + n % 64 - 128) = n := by omega
        simp only [h1, h2, h3, isCont]
        rw [if_neg (by omega)]
        have k : (!(Nat.ble 128 (128 + n % 64) && Nat.blt (128 + n % 64) 192)) = false := by
          simp [Nat.ble_eq, Nat.blt_eq]; omega
        have k2 : (!(Nat.ble 128 (128 + n / 64 % 64) && Nat.blt (128 + n / 64 % 64) 192)) = false := by
          simp [Nat.ble_eq, Nat.blt_eq]; omega
        simp only [k, k2, Bool.false_eq_true, if_false]
        rw [if_neg (by omega), if_pos (by omega), e, if_pos (by omega), hc]
      · have h1 : (byte (0xF0 + n / 262144)).toNat = 0xF0 + n / 262144 := byte_toNat _ (by omega)
        have h4 : (byte (0x80 + n / 4096 % 64)).toNat = 0x80 + n / 4096 % 64 := byte_toNat _ (by omega)
        have h2 : (byte (0x80 + n / 64 % 64)).toNat = 0x80 + n / 64 % 64 := byte_toNat _ (by omega)
        have h3 : (byte (0x80 + n % 64)).toNat = 0x80 + n % 64 := byte_toNat _ (by omega)
        rw [List.cons_append, List.cons_append, List.cons_append, List.singleton_append, utf8Dec.eq_def]
        have e : (240 + n / 262144 - 240) * 262144 + (128 + n / 4096 % 64 - 128) * 4096 + (128 + n / 64 % 64 - 128) * 64 +
            (128 + n % 64 - 128) = n := by omega
        simp only [h1, h2, h3, h4, isCont]
        rw [if_neg (by omega)]
        have k : (!(Nat.ble 128 (128 + n % 64) && Nat.blt (128 + n % 64) 192)) = false := by
          simp [Nat.ble_eq, Nat.blt_eq]; omega
        have k2 : (!(Nat.ble 128 (128 + n / 64 % 64) && Nat.blt (128 + n / 64 % 64) 192)) = false := by
          simp [Nat.ble_eq, Nat.blt_eq]; omega
        have k3 : (!(Nat.ble 128 (128 + n / 4096 % 64) && Nat.blt (128 + n / 4096 % 64) 192)) = false := by
          simp [Nat.ble_eq, Nat.blt_eq]; omega
        simp only [k, k2, k3, Bool.false_eq_true, if_false]
        rw [if_neg (by omega), if_neg (by omega), if_pos (by omega), e, if_pos (by omega), hc]

/-- decoding what was encoded gives the text back -/
theorem utf8_round_trip (s : Str) : utf8Dec (utf8Enc s) = some s := by
  induction s with
  | nil => rfl
  | cons c t ih =>
    have : utf8Enc (c :: t) = utf8Char c ++ utf8Enc t := by simp [utf8Enc]
    rw [this, utf8Dec_char, ih]; rfl

theorem utf8Enc_cons (c : Char) (s : Str) : utf8Enc (c :: s) = utf8Char c ++ utf8Enc s := by simp [utf8Enc]

theorem char_toNat (n : Nat) (h : n < 0xD800 ∨ (0xDFFF < n ∧ n < 0x110000)) : (Char.ofNat n).toNat = n := by
  rw [Char.ofNat, dif_pos h]; rfl

theorem cont_range (b : UInt8) (h : ¬ (!isCont b) = true) : 0x80 ≤ b.toNat ∧ b.toNat < 0xC0 := by
  simpa [isCont, Nat.ble_eq, Nat.blt_eq] using h

/-- what decodes is the encoding of what it decodes to -/
theorem utf8_dec_enc (b : Bytes) : ∀ s, utf8Dec b = some s → utf8Enc s = b := by
  induction b using utf8Dec.induct with
  | case1 => intro s h; cases h; rfl
  | case2 a t h ih =>
    intro s hs
    rw [utf8Dec.eq_def] at hs
    simp only [h, if_true, Option.map_eq_some_iff] at hs
    obtain ⟨s', h1, rfl⟩ := hs
    rw [utf8Enc_cons, ih s' h1]
    simp only [utf8Char, char_toNat _ (show a.toNat < 0xD800 ∨ _ from .inl (by omega)), h, if_true, byte_of_toNat]
    rfl
  | case3 a h => intro s hs; rw [utf8Dec.eq_def] at hs; dsimp only at hs; rw [if_neg h] at hs; cases hs
  | case4 a h d t hd => intro s hs; rw [utf8Dec.eq_def] at hs; dsimp only at hs; rw [if_neg h, if_pos hd] at hs; cases hs
  | case5 a h d t hd ha ih =>
    intro s hs
    rw [utf8Dec.eq_def] at hs; dsimp only at hs
    rw [if_neg h, if_neg hd, if_pos ha, Option.map_eq_some_iff] at hs
    obtain ⟨s', h1, rfl⟩ := hs
    have hr := cont_range d hd
    rw [utf8Enc_cons, ih s' h1]
    simp only [utf8Char]
    rw [char_toNat _ (.inl (by omega)), if_neg (by omega), if_pos (by omega)]
    have e1 : 0xC0 + ((a.toNat - 192) * 64 + (d.toNat - 128)) / 64 = a.toNat := by omega
    have e2 : 0x80 + ((a.toNat - 192) * 64 + (d.toNat - 128)) % 64 = d.toNat := by omega
    rw [e1, e2, byte_of_toNat, byte_of_toNat]; rfl
  | case6 a h d hd ha =>
    intro s hs; rw [utf8Dec.eq_def] at hs; dsimp only at hs; rw [if_neg h, if_neg hd, if_neg ha] at hs; cases hs
  | case7 a h d hd ha e t he =>
    intro s hs; rw [utf8Dec.eq_def] at hs; dsimp only at hs; rw [if_neg h, if_neg hd, if_neg ha, if_pos he] at hs; cases hs
  | case8 a h d hd ha e t he h3 n hn ih =>
    intro s hs
    rw [utf8Dec.eq_def] at hs; dsimp only at hs
    rw [if_neg h, if_neg hd, if_neg ha, if_neg he, if_pos h3, if_pos hn, Option.map_eq_some_iff] at hs
    obtain ⟨s', h1, rfl⟩ := hs
    have hr := cont_range d hd
    have hr2 := cont_range e he
    rw [utf8Enc_cons, ih s' h1]
    simp only [utf8Char]
    rw [char_toNat _ (by omega), if_neg (by omega), if_neg (by omega), if_pos (by omega)]
    have e1 : 0xE0 + ((a.toNat - 224) * 4096 + (d.toNat - 128) * 64 + (e.toNat - 128)) / 4096 = a.toNat := by omega
    have e2 : 0x80 + ((a.toNat - 224) * 4096 + (d.toNat - 128) * 64 + (e.toNat - 128)) / 64 % 64 = d.toNat := by omega
    have e3 : 0x80 + ((a.toNat - 224) * 4096 + (d.toNat - 128) * 64 + (e.toNat - 128)) % 64 = e.toNat := by omega
    rw [e1, e2, e3, byte_of_toNat, byte_of_toNat, byte_of_toNat]; rfl
  | case9 a h d hd ha e t he h3 n hn =>
    intro s hs; rw [utf8Dec.eq_def] at hs; dsimp only at hs
    rw [if_neg h, if_neg hd, if_neg ha, if_neg he, if_pos h3, if_neg hn] at hs; cases hs
  | case10 a h d hd ha e he h3 =>
    intro s hs; rw [utf8Dec.eq_def] at hs; dsimp only at hs
    rw [if_neg h, if_neg hd, if_neg ha, if_neg he, if_neg h3] at hs; cases hs
  | case11 a h d hd ha e he h3 f t hf =>
    intro s hs; rw [utf8Dec.eq_def] at hs; dsimp only at hs
    rw [if_neg h, if_neg hd, if_neg ha, if_neg he, if_neg h3, if_pos hf] at hs; cases hs
  | case12 a h d hd ha e he h3 f t hf h4 n hn ih =>
    intro s hs
    rw [utf8Dec.eq_def] at hs; dsimp only at hs
    rw [if_neg h, if_neg hd, if_neg ha, if_neg he, if_neg h3, if_neg hf, if_pos h4, if_pos hn, Option.map_eq_some_iff] at hs
    obtain ⟨s', h1, rfl⟩ := hs
    have hr := cont_range d hd
    have hr2 := cont_range e he
    have hr3 := cont_range f hf
    rw [utf8Enc_cons, ih s' h1]
    simp only [utf8Char]
    rw [char_toNat _ (by omega), if_neg (by omega), if_neg (by omega), if_neg (by omega)]
    have e1 : 0xF0 + ((a.toNat - 240) * 262144 + (d.toNat - 128) * 4096 + (e.toNat - 128) * 64 + (f.toNat - 128)) / 262144 =
      a.toNat := by omega
    have e2 : 0x80 + ((a.toNat - 240) * 262144 + (d.toNat - 128) * 4096 + (e.toNat - 128) * 64 + (f.toNat - 128)) / 4096 % 64 =
      d.toNat := by omega
    have e3 : 0x80 + ((a.toNat - 240) * 262144 + (d.toNat - 128) * 4096 + (e.toNat - 128) * 64 + (f.toNat - 128)) / 64 % 64 =
      e.toNat := by omega
    have e4 : 0x80 + ((a.toNat - 240) * 262144 + (d.toNat - 128) * 4096 + (e.toNat - 128) * 64 + (f.toNat - 128)) % 64 =
      f.toNat := by omega
    rw [e1, e2, e3, e4, byte_of_toNat, byte_of_toNat, byte_of_toNat, byte_of_toNat]; rfl
  | case13 a h d hd ha e he h3 f t hf h4 n hn =>
    intro s hs; rw [utf8Dec.eq_def] at hs; dsimp only at hs
    rw [if_neg h, if_neg hd, if_neg ha, if_neg he, if_neg h3, if_neg hf, if_pos h4, if_neg hn] at hs; cases hs
  | case14 a h d hd ha e he h3 f t hf h4 =>
    intro s hs; rw [utf8Dec.eq_def] at hs; dsimp only at hs
    rw [if_neg h, if_neg hd, if_neg ha, if_neg he, if_neg h3, if_neg hf, if_neg h4] at hs; cases hs

theorem toNat_ofNat (n : Nat) (h : n < 128) : (Char.ofNat n).toNat = n := by
  rw [Char.ofNat, dif_pos (by unfold Nat.isValidChar; omega)]; rfl

theorem b64_digit (n : Nat) (h : n < 64) : b64Val (b64Char n) = some n := by
  have key : ∀ i : Fin 64, b64Val (b64Char i.1) = some i.1 := by decide
  exact key ⟨n, h⟩

theorem b64_alpha (n : Nat) (h : n < 64) : b64Char n ≠ '=' ∧ (b64Char n).toNat < 128 ∧ 33 ≤ (b64Char n).toNat := by
  have key : ∀ i : Fin 64, b64Char i.1 ≠ '=' ∧ (b64Char i.1).toNat < 128 ∧ 33 ≤ (b64Char i.1).toNat := by decide
  exact key ⟨n, h⟩

theorem b64_not_colon (n : Nat) (h : n < 64) : b64Char n ≠ ':' ∧ b64Char n ≠ '<' := by
  have key : ∀ i : Fin 64, b64Char i.1 ≠ ':' ∧ b64Char i.1 ≠ '<' := by decide
  exact key ⟨n, h⟩

theorem a2b_digit0 (left pads : Nat) (out : Bytes) (n : Nat) (h : n < 64) (t : Str) :
    a2b 0 left pads out (b64Char n :: t) = a2b 1 n 0 out t := by
  rw [a2b, if_neg (b64_alpha n h).1, b64_digit n h]
  rfl

theorem a2b_digit1 (left pads : Nat) (out : Bytes) (n : Nat) (h : n < 64) (t : Str) :
    a2b 1 left pads out (b64Char n :: t) = a2b 2 (n % 16) 0 (out ++ [byte (left * 4 + n / 16)]) t := by
  rw [a2b, if_neg (b64_alpha n h).1, b64_digit n h]
  rfl

theorem a2b_digit2 (left pads : Nat) (out : Bytes) (n : Nat) (h : n < 64) (t : Str) :
    a2b 2 left pads out (b64Char n :: t) = a2b 3 (n % 4) 0 (out ++ [byte (left * 16 + n / 4)]) t := by
  rw [a2b, if_neg (b64_alpha n h).1, b64_digit n h]
  rfl

theorem a2b_digit3 (left pads : Nat) (out : Bytes) (n : Nat) (h : n < 64) (t : Str) :
    a2b 3 left pads out (b64Char n :: t) = a2b 0 0 0 (out ++ [byte (left * 64 + n)]) t := by
  rw [a2b, if_neg (b64_alpha n h).1, b64_digit n h]
  rfl

theorem a2b_enc (b : Bytes) (out : Bytes) : a2b 0 0 0 out (b64Enc b) = some (out ++ b) := by
  induction b using b64Enc.induct generalizing out with
  | case1 a b c t ih =>
    have ha := a.toNat_lt; have hb := b.toNat_lt; have hc := c.toNat_lt
    rw [b64Enc, a2b_digit0 _ _ _ _ (by omega)]
    rw [a2b_digit1 _ _ _ _ (by omega)]
    rw [a2b_digit2 _ _ _ _ (by omega)]
    rw [a2b_digit3 _ _ _ _ (by omega)]
    rw [ih]
    have e1 : a.toNat / 4 * 4 + (a.toNat % 4 * 16 + b.toNat / 16) / 16 = a.toNat := by omega
    have e2 : (a.toNat % 4 * 16 + b.toNat / 16) % 16 * 16 + (b.toNat % 16 * 4 + c.toNat / 64) / 4 = b.toNat := by omega
    have e3 : (b.toNat % 16 * 4 + c.toNat / 64) % 4 * 64 + c.toNat % 64 = c.toNat := by omega
    rw [e1, e2, e3]
    simp [byte_of_toNat]
  | case2 a b =>
    have ha := a.toNat_lt; have hb := b.toNat_lt
    rw [b64Enc, a2b_digit0 _ _ _ _ (by omega)]
    rw [a2b_digit1 _ _ _ _ (by omega)]
    rw [a2b_digit2 _ _ _ _ (by omega)]
    have e1 : a.toNat / 4 * 4 + (a.toNat % 4 * 16 + b.toNat / 16) / 16 = a.toNat := by omega
    have e2 : (a.toNat % 4 * 16 + b.toNat / 16) % 16 * 16 + (b.toNat % 16 * 4) / 4 = b.toNat := by omega
    rw [e1, e2]
    simp [a2b, byte_of_toNat]
  | case3 a =>
    have ha := a.toNat_lt
    rw [b64Enc, a2b_digit0 _ _ _ _ (by omega)]
    rw [a2b_digit1 _ _ _ _ (by omega)]
    have e1 : a.toNat / 4 * 4 + (a.toNat % 4 * 16) / 16 = a.toNat := by omega
    rw [e1]
    simp [a2b, byte_of_toNat]
  | case4 => simp [b64Enc, a2b]

/-- every character of a base64 text is a base64 digit or the padding character -/
theorem b64_chars (b : Bytes) : ∀ c ∈ b64Enc b, (33 ≤ c.toNat ∧ c.toNat < 128) ∧ c ≠ ':' ∧ c ≠ '<' := by
  have k : ∀ n, n < 64 → (33 ≤ (b64Char n).toNat ∧ (b64Char n).toNat < 128) ∧ b64Char n ≠ ':' ∧ b64Char n ≠ '<' := fun n h =>
    ⟨⟨(b64_alpha n h).2.2, (b64_alpha n h).2.1⟩, b64_not_colon n h⟩
  have ke : (33 ≤ '='.toNat ∧ '='.toNat < 128) ∧ '=' ≠ ':' ∧ '=' ≠ '<' := by decide
  induction b using b64Enc.induct with
  | case1 a b c t ih =>
    have ha := a.toNat_lt; have hb := b.toNat_lt; have hc := c.toNat_lt
    intro x hx
    simp only [b64Enc, List.mem_cons] at hx
    rcases hx with rfl | rfl | rfl | rfl | hx
    · exact k _ (by omega)
    · exact k _ (by omega)
    · exact k _ (by omega)
    · exact k _ (by omega)
    · exact ih x hx
  | case2 a b =>
    have ha := a.toNat_lt; have hb := b.toNat_lt
    intro x hx
    simp only [b64Enc, List.mem_cons, List.not_mem_nil, or_false] at hx
    rcases hx with rfl | rfl | rfl | rfl
    · exact k _ (by omega)
    · exact k _ (by omega)
    · exact k _ (by omega)
    · exact ke
  | case3 a =>
    have ha := a.toNat_lt
    intro x hx
    simp only [b64Enc, List.mem_cons, List.not_mem_nil, or_false] at hx
    rcases hx with rfl | rfl | rfl | rfl
    · exact k _ (by omega)
    · exact k _ (by omega)
    · exact ke
    · exact ke
  | case4 => simp [b64Enc]

/-- decoding what was encoded gives the octets back -/
theorem b64_round_trip (b : Bytes) : b64Dec (b64Enc b) = .ok b := by
  have h : (b64Enc b).all (fun c => Nat.blt c.toNat 128) = true := by
    rw [List.all_eq_true]; intro c hc; rw [Nat.blt_eq]; exact (b64_chars b c hc).1.2
  rw [b64Dec, if_pos h, a2b_enc]; rfl

theorem b64_injective (a b : Bytes) (h : b64Enc a = b64Enc b) : a = b := by
  have h1 := b64_round_trip a
  rw [h, b64_round_trip b] at h1
  exact (Except.ok.inj h1).symm

theorem utf8_injective (a b : Str) (h : utf8Enc a = utf8Enc b) : a = b := by
  have h1 := utf8_round_trip a
  rw [h, utf8_round_trip b] at h1
  exact (Option.some.inj h1).symm

end Laurelin.Codec
