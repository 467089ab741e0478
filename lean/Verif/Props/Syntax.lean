import Verif.Model.Syntax
import Verif.Lemmas.Regex
import Verif.Spec.Rfc4517
/-!
C57: the syntax rules against the productions of RFC 4517.
-/
namespace Laurelin.Props
open Laurelin Laurelin.Spec Laurelin.Spec.Abnf
open Rfc4517 (orNewline)

/-- The rule accepts the value. -/
def Accepts (r : Syntax.Rule) (s : Str) : Prop := r.validate s = .ok ()

instance (r : Syntax.Rule) (s : Str) : Decidable (Accepts r s) := inferInstanceAs (Decidable (_ = _))

namespace SyntaxP

theorem accepts_anchored (r : Rx) (s : Str) : Accepts (.anchored r) s ↔ orNewline r.Lang s := by
  have := Rx.anchored_iff r s
  simp only [Accepts, Syntax.Rule.validate, orNewline]
  rw [← this]
  split <;> simp_all

theorem accepts_prefix (r : Rx) (s : Str) : Accepts (.prefix_ r) s ↔ ∃ u v, s = u ++ v ∧ r.Lang u := by
  have := Rx.prefix_iff r s
  simp only [Accepts, Syntax.Rule.validate]
  rw [← this]
  split <;> simp_all

theorem digit_eq : Syntax.digit = Char.isDigit := by
  funext c; simp [Syntax.digit, Syntax.range, Char.isDigit, Char.le_def]

theorem alpha_eq : Syntax.alpha = Char.isAlpha := by
  funext c; simp [Syntax.alpha, Syntax.range, Char.isAlpha, Char.isUpper, Char.isLower, Char.le_def]

theorem printable_eq : Syntax.printable = Rfc4517.printableCharacter := by
  funext c
  simp only [Syntax.printable, Rfc4517.printableCharacter, alpha_eq, digit_eq, Char.isAlphanum, List.contains_cons, List.contains_nil]
  grind

theorem lang_printable : Syntax.printableString.Lang = Rfc4517.printableString := by
  rw [Syntax.printableString, Rx.lang_plus, Rfc4517.printableString, ← printable_eq]; rfl

theorem lang_ia5 : Syntax.ia5String.Lang = Rfc4517.ia5String := by
  have : (fun c : Char => decide (c.toNat ≤ 0x7f)) = fun c => decide (c.toNat < 128) := by funext c; simp; omega
  rw [Syntax.ia5String, this]; rfl

theorem cats_lit (B : Language) (u v : Str) : cat (lit u) (cat (lit v) B) = cat (lit (u ++ v)) B := by
  funext s
  simp only [cat, lit, eq_iff_iff]
  constructor
  · rintro ⟨_, _, rfl, rfl, _, w, rfl, rfl, h⟩; exact ⟨_, w, by simp, rfl, h⟩
  · rintro ⟨_, w, rfl, rfl, h⟩; exact ⟨u, v ++ w, by simp, rfl, v, w, rfl, rfl, h⟩

theorem lit_cat (u v : Str) : (cat (lit u) (lit v) : Language) = lit (u ++ v) := by
  funext s
  simp only [cat, lit, eq_iff_iff]
  constructor
  · rintro ⟨_, _, rfl, rfl, rfl⟩; rfl
  · rintro rfl; exact ⟨u, v, rfl, rfl, rfl⟩

theorem chr_eq (d : Char) : (chr (fun x => x == d) : Language) = lit [d] := by
  funext s
  simp only [chr, lit, eq_iff_iff]
  constructor
  · rintro ⟨c, rfl, h⟩; simp at h; rw [h]
  · rintro rfl; exact ⟨d, rfl, by simp⟩

theorem any_case_digit (d : Char) (h : d.toUpper = d) : (Syntax.anyCase d).Lang = lit [d] := by
  rw [← chr_eq]; simp only [Syntax.anyCase, h, Bool.or_self]; rfl

theorem cat_mono {A B A' B' : Language} (h1 : ∀ s, A s → A' s) (h2 : ∀ s, B s → B' s) (s : Str) (h : cat A B s) : cat A' B' s := by
  obtain ⟨u, v, rfl, ha, hb⟩ := h; exact ⟨u, v, rfl, h1 u ha, h2 v hb⟩

theorem many_mono {A A' : Language} (h1 : ∀ s, A s → A' s) (s : Str) (h : many A s) : many A' s := by
  obtain ⟨l, rfl, hl⟩ := h; exact ⟨l, rfl, fun u hu => h1 u (hl u hu)⟩

theorem many1_mono {A A' : Language} (h1 : ∀ s, A s → A' s) (s : Str) (h : many1 A s) : many1 A' s := by
  obtain ⟨l, hn, rfl, hl⟩ := h; exact ⟨l, hn, rfl, fun u hu => h1 u (hl u hu)⟩

theorem alt_mono {A B A' B' : Language} (h1 : ∀ s, A s → A' s) (h2 : ∀ s, B s → B' s) (s : Str) (h : alt A B s) : alt A' B' s := by
  rcases h with h | h
  · exact Or.inl (h1 s h)
  · exact Or.inr (h2 s h)

theorem alt_assoc3 (A B C : Language) : alt A (alt B C) = alt C (alt B A) := by
  funext s; simp only [alt, eq_iff_iff]; grind

theorem many_of_many1 (A : Language) (s : Str) (h : many1 A s) : many A s := by
  obtain ⟨l, _, rfl, hl⟩ := h; exact ⟨l, rfl, hl⟩

theorem many_cases (A : Language) (s : Str) (h : many A s) : s = [] ∨ many1 A s := by
  obtain ⟨l, rfl, hl⟩ := h
  cases l with
  | nil => exact Or.inl rfl
  | cons u l => exact Or.inr ⟨u :: l, by simp, rfl, hl⟩

theorem escaped_dollar : (Syntax.escapedRegex ['\\', '$']).Lang =
    alt (chr (fun c => c != '\\' && c != '$')) (alt Rfc4517.escDollar Rfc4517.escBackslash) := by
  have e1 : (Syntax.hexEscape '\\').Lang = Rfc4517.escBackslash := by
    rw [Syntax.hexEscape, Rx.lang_cat]
    simp only [List.map, cats, Rx.lang_lit]
    rw [show (Syntax.anyCase (Syntax.hexDigit ('\\'.toNat / 16))).Lang = lit ['5'] from any_case_digit '5' (by decide), cats_lit]
    rfl
  have e2 : (Syntax.hexEscape '$').Lang = Rfc4517.escDollar := by
    rw [Syntax.hexEscape, Rx.lang_cat]
    simp only [List.map, cats, Rx.lang_lit]
    rw [show (Syntax.anyCase (Syntax.hexDigit ('$'.toNat / 16))).Lang = lit ['2'] from any_case_digit '2' (by decide), cats_lit,
      show (Syntax.anyCase (Syntax.hexDigit ('$'.toNat % 16))).Lang = lit ['4'] from any_case_digit '4' (by decide), lit_cat]
    rfl
  have e3 : (fun c : Char => !['\\', '$'].contains c) = (fun c => c != '\\' && c != '$') := by
    funext c; rw [Bool.eq_iff_iff]; simp
  simp only [Syntax.escapedRegex, List.map, List.cons_append, List.nil_append, Rx.any, Rx.Lang, e1, e2, e3]
  exact (alt_assoc3 _ _ _)

theorem escaped_star : (Syntax.escapedRegex ['\\', '*']).Lang =
    alt (chr (fun c => c != '\\' && c != '*')) (alt Rfc4517.escStar Rfc4517.escBackslash) := by
  have e1 : (Syntax.hexEscape '\\').Lang = Rfc4517.escBackslash := by
    rw [Syntax.hexEscape, Rx.lang_cat]
    simp only [List.map, cats, Rx.lang_lit]
    rw [show (Syntax.anyCase (Syntax.hexDigit ('\\'.toNat / 16))).Lang = lit ['5'] from any_case_digit '5' (by decide), cats_lit]
    rfl
  have e2 : (Syntax.hexEscape '*').Lang = Rfc4517.escStar := by
    rw [Syntax.hexEscape, Rx.lang_cat]
    simp only [List.map, cats, Rx.lang_lit]
    rw [show (Syntax.anyCase (Syntax.hexDigit ('*'.toNat / 16))).Lang = lit ['2'] from any_case_digit '2' (by decide), cats_lit]
    rfl
  have e3 : (fun c : Char => !['\\', '*'].contains c) = (fun c => c != '\\' && c != '*') := by
    funext c; rw [Bool.eq_iff_iff]; simp
  simp only [Syntax.escapedRegex, List.map, List.cons_append, List.nil_append, Rx.any, Rx.Lang, e1, e2, e3]
  exact (alt_assoc3 _ _ _)

theorem range19 : Syntax.range '1' '9' = fun c => c.isDigit && c != '0' := by
  funext c
  have h0 : (c != '0') = decide (c.toNat ≠ 48) := by
    by_cases h : c = '0'
    · subst h; rfl
    · have : c.toNat ≠ 48 := fun hn => h (by apply Char.ext; apply UInt32.toNat_inj.1; exact hn)
      simp [h, this]
  rw [h0, ← digit_eq, Bool.eq_iff_iff]
  simp only [Syntax.range, Syntax.digit, Char.le_def, UInt32.le_iff_toNat_le, Bool.and_eq_true, decide_eq_true_eq]
  have : c.val.toNat = c.toNat := rfl
  simp only [this, show '1'.val.toNat = 49 from rfl, show '9'.val.toNat = 57 from rfl, show '0'.val.toNat = 48 from rfl]
  omega

theorem lang_digits : (Rx.plus (.cls Syntax.digit)).Lang = many1 Rfc4517.DIGIT := by
  rw [Rx.lang_plus, digit_eq]; rfl

theorem number_digits (s : Str) (h : Rfc4517.number s) : many1 Rfc4517.DIGIT s := by
  rcases h with h | ⟨u, v, rfl, ⟨c, rfl, hc⟩, h⟩
  · exact ⟨[s], by simp, by simp, by simpa using h⟩
  · rw [Rx.many1_iff]
    refine ⟨[c], v, rfl, ⟨c, rfl, ?_⟩, many_of_many1 _ _ h⟩
    simp at hc; exact hc.1

/-- `oid` of the code: numbers may have leading zeros -/
theorem lang_descr : Syntax.descr.Lang = Rfc4517.descr := by
  have : Syntax.keychar = fun c => c.isAlphanum || c == '-' := by
    funext c; simp [Syntax.keychar, alpha_eq, digit_eq, Char.isAlphanum]
  simp only [Syntax.descr, Rx.cat, Rx.Lang, alpha_eq, this]; rfl

theorem lang_numericoid : Syntax.numericoid.Lang = cat (many1 Rfc4517.DIGIT) (many1 (cat (lit ['.']) (many1 Rfc4517.DIGIT))) := by
  simp only [Syntax.numericoid, Rx.lang_cat, List.map, cats, lang_digits, Rx.lang_plus (.cat _), Rx.lang_lit]

theorem ascii_ind (P : Char → Prop) (h : ∀ n, n < 128 → P (Char.ofNat n)) (c : Char) (hc : c.toNat < 128) : P c := by
  have := h c.toNat hc
  rwa [Char.ofNat_toNat] at this

theorem hex_of_spec (c : Char) (h : (str "0123456789abcdefABCDEF").contains c = true) : Syntax.hex c = true := by
  have : ∀ c ∈ str "0123456789abcdefABCDEF", Syntax.hex c = true := by decide
  exact this c (by simpa using h)

theorem hex_eq : Syntax.hex = fun c => (str "0123456789abcdefABCDEF").contains c := by
  funext c
  rw [Bool.eq_iff_iff]
  refine ⟨fun h => ?_, hex_of_spec c⟩
  by_cases hc : c.toNat < 128
  · exact ascii_ind (fun c => Syntax.hex c = true → (str "0123456789abcdefABCDEF").contains c = true) (by decide) c hc h
  · exfalso
    simp only [Syntax.hex, Syntax.range, Char.le_def, UInt32.le_iff_toNat_le, Bool.and_eq_true, Bool.or_eq_true, decide_eq_true_eq] at h
    have e : c.val.toNat = c.toNat := rfl
    simp only [e, show '9'.val.toNat = 57 from rfl, show 'F'.val.toNat = 70 from rfl, show 'f'.val.toNat = 102 from rfl] at h
    omega

theorem lang_hexpair : Syntax.hexpair.Lang = Rfc4517.hexpair := by
  simp only [Syntax.hexpair, Rx.cat, Rx.Lang, hex_eq]; rfl

theorem lang_hexstring : Syntax.hexstring.Lang = Rfc4517.hexstring := by
  rw [Syntax.hexstring, Rx.lang_cat]
  simp only [List.map, cats, Rx.lang_lit, Rx.lang_plus, lang_hexpair]; rfl

/-- the pairs of the code: those of the RFC, and a backslash before NUL -/
theorem lang_pair : Syntax.pair.Lang = alt Rfc4517.pair (lit ['\\', '\x00']) := by
  funext s
  have hs : Syntax.special = fun c => (str "\\\"+,;<> #=").contains c || c == '\x00' := by
    funext c; rw [Bool.eq_iff_iff]
    simp [Syntax.special, Syntax.escaped]; grind
  rw [Syntax.pair, Rx.lang_cat]
  simp only [List.map, cats, Rx.lang_lit, Rx.Lang, lang_hexpair, hs, alt, Rfc4517.pair, cat, lit, chr, eq_iff_iff]
  constructor
  · rintro ⟨_, v, rfl, rfl, ⟨c, rfl, hc⟩ | h⟩
    · simp only [Bool.or_eq_true, beq_iff_eq] at hc
      rcases hc with hc | rfl
      · exact Or.inl ⟨_, _, rfl, rfl, Or.inl ⟨c, rfl, hc⟩⟩
      · exact Or.inr rfl
    · exact Or.inl ⟨_, _, rfl, rfl, Or.inr h⟩
  · rintro (⟨_, v, rfl, rfl, ⟨c, rfl, hc⟩ | h⟩ | rfl)
    · exact ⟨_, _, rfl, rfl, Or.inl ⟨c, rfl, by simp only [hc, Bool.true_or]⟩⟩
    · exact ⟨_, _, rfl, rfl, Or.inr h⟩
    · exact ⟨_, _, rfl, rfl, Or.inl ⟨_, rfl, by decide⟩⟩

theorem lang_dn : Syntax.distinguishedName.Lang = Rfc4517.dnOf (Rx.Lang Syntax.attributeType) (Rx.Lang Syntax.attributeValue) := by
  simp only [Syntax.distinguishedName, Syntax.relativeDistinguishedName, Syntax.attributeTypeAndValue, Rx.lang_cat, List.map, cats, Rx.Lang,
    Rx.lang_lit, Rfc4517.dnOf, Rfc4517.rdnOf, Rfc4517.atavOf]

theorem dnOf_mono {T V T' V' : Language} (h1 : ∀ s, T s → T' s) (h2 : ∀ s, V s → V' s) (s : Str) (h : Rfc4517.dnOf T V s) : Rfc4517.dnOf T' V' s := by
  have ha : ∀ s, Rfc4517.atavOf T V s → Rfc4517.atavOf T' V' s := cat_mono h1 (cat_mono (fun _ h => h) h2)
  have hr : ∀ s, Rfc4517.rdnOf T V s → Rfc4517.rdnOf T' V' s := cat_mono ha (many_mono (cat_mono (fun _ h => h) ha))
  exact cat_mono hr (many_mono (cat_mono (fun _ h => h) hr)) s h

theorem number_oid (s : Str) (h : Rfc4517.oid s) : Syntax.attributeType.Lang s := by
  rw [Syntax.attributeType, Rx.Lang, lang_descr, lang_numericoid]
  exact alt_mono (fun _ h => h) (cat_mono number_digits (many1_mono (cat_mono (fun _ h => h) number_digits))) s h

theorem string_of_spec (s : Str) (h : Rfc4517.string s) (hn : s ≠ []) (he : s.head? ≠ some '=') : Syntax.string.Lang s := by
  have hp : ∀ s, Rfc4517.pair s → Syntax.pair.Lang s := fun s h => by rw [lang_pair]; exact Or.inl h
  rw [Syntax.string, Rx.lang_cat]
  simp only [List.map, cats, Rx.Lang, Rx.lang_opt]
  rcases h with rfl | ⟨u, v, rfl, hu, hv⟩
  · exact absurd rfl hn
  · refine ⟨u, v, rfl, ?_, ?_⟩
    · rcases hu with ⟨c, rfl, hc⟩ | hu
      · left
        refine ⟨c, rfl, ?_⟩
        have : c ≠ '=' := by simpa using he
        simp [Syntax.special, Syntax.escaped] at hc ⊢
        grind
      · exact Or.inr (hp u hu)
    · rcases hv with rfl | ⟨x, y, rfl, hx, hy⟩
      · exact ⟨[], [], rfl, ⟨[], rfl, by simp⟩, Or.inl rfl⟩
      · refine ⟨x, y, rfl, ?_, Or.inr ?_⟩
        · refine many_mono (alt_mono ?_ hp) x hx
          rintro s ⟨c, rfl, hc⟩
          refine ⟨c, rfl, ?_⟩
          simp [Syntax.escaped] at hc ⊢; grind
        · refine alt_mono ?_ hp y hy
          rintro s ⟨c, rfl, hc⟩
          refine ⟨c, rfl, ?_⟩
          simp [Syntax.escaped] at hc ⊢; grind

theorem spec_of_string (s : Str) (h : Syntax.string.Lang s) :
    many1 (alt Rfc4517.stringchar (alt Rfc4517.pair (lit ['\\', '\x00']))) s ∧ s.head? ≠ some ' ' ∧ s.head? ≠ some '#' ∧ s.head? ≠ some '=' := by
  rw [Syntax.string, Rx.lang_cat] at h
  simp only [List.map, cats, Rx.Lang, Rx.lang_opt, lang_pair] at h
  obtain ⟨u, v, rfl, hu, x, y, rfl, hx, hy⟩ := h
  have sc : ∀ (p : Char → Bool), (∀ c, p c = true → Syntax.escaped c = false) → ∀ s, chr p s → Rfc4517.stringchar s := by
    rintro p hp s ⟨c, rfl, hc⟩
    have := hp c hc
    refine ⟨c, rfl, ?_⟩
    simp [Syntax.escaped] at this ⊢; grind
  constructor
  · rw [Rx.many1_iff]
    refine ⟨u, x ++ y, rfl, ?_, ?_⟩
    · refine alt_mono (sc _ ?_) (fun _ h => h) u hu
      intro c hc; simp [Syntax.special] at hc; grind
    · have h1 : many (alt Rfc4517.stringchar (alt Rfc4517.pair (lit ['\\', '\x00']))) x := by
        refine many_mono (alt_mono (sc _ ?_) (fun _ h => h)) x hx
        intro c hc; simpa using hc
      obtain ⟨l, rfl, hl⟩ := h1
      rcases hy with rfl | hy
      · exact ⟨l, by simp, hl⟩
      · refine ⟨l ++ [y], by simp, ?_⟩
        intro w hw
        simp at hw
        rcases hw with hw | rfl
        · exact hl w hw
        · refine alt_mono (sc _ ?_) (fun _ h => h) w hy
          intro c hc; simp at hc; grind
  · rcases hu with ⟨c, rfl, hc⟩ | ⟨a, b, rfl, ha, hb⟩ | hu
    · simp [Syntax.special] at hc ⊢; grind
    · rw [show a = ['\\'] from ha]; simp
    · rw [show u = _ from hu]; simp

end SyntaxP

/-- **C57, Bit String** -/
theorem c57_bit_string (s : Str) : Accepts Syntax.ruleBitString s ↔ orNewline Rfc4517.bitString s := by
  rw [Syntax.ruleBitString, SyntaxP.accepts_anchored]
  have : Syntax.bitString.Lang = Rfc4517.bitString := by
    simp only [Syntax.bitString, Rx.lang_cat, List.map, Rx.lang_lit, Rfc4517.bitString, cats]
    rw [show (lit (str "'B") : Language) = cat (lit ['\'']) (lit ['B']) from by
      funext s; simp only [cat, lit, eq_iff_iff]
      constructor
      · rintro rfl; exact ⟨_, _, rfl, rfl, rfl⟩
      · rintro ⟨_, _, rfl, rfl, rfl⟩; rfl]
    rfl
  rw [this]

/-- **C57, Boolean** -/
theorem c57_boolean (s : Str) : Accepts .boolean s ↔ Rfc4517.boolean s := by
  simp only [Accepts, Syntax.Rule.validate, Rfc4517.boolean, oneOf]
  split <;> grind

/-- **C57, Country String** -/
theorem c57_country_string (s : Str) : Accepts Syntax.ruleCountryString s ↔ orNewline Rfc4517.countryString s := by
  rw [Syntax.ruleCountryString, SyntaxP.accepts_anchored]
  have : Syntax.countryString.Lang = Rfc4517.countryString := by
    funext s
    simp only [Syntax.countryString, Rx.rep, Rx.Lang, Rfc4517.countryString, ← SyntaxP.printable_eq, cat, lit, eq_iff_iff]
    constructor
    · rintro ⟨u, v, rfl, hu, v', w, rfl, hv, rfl⟩; exact ⟨u, v', by simp, hu, hv⟩
    · rintro ⟨u, v, rfl, hu, hv⟩; exact ⟨u, v, rfl, hu, v, [], by simp, hv, rfl⟩
  rw [this]

/-- **C57, Directory String** -/
theorem c57_directory_string (s : Str) : Accepts .directoryString s ↔ Rfc4517.directoryString s := by
  simp only [Accepts, Syntax.Rule.validate, Rfc4517.directoryString, Rx.many1_chr]
  split <;> simp_all

/-- **C57, IA5 String** -/
theorem c57_ia5_string (s : Str) : Accepts Syntax.ruleIA5String s ↔ Rfc4517.ia5String s := by
  rw [Syntax.ruleIA5String, SyntaxP.accepts_anchored, SyntaxP.lang_ia5]
  constructor
  · rintro (h | ⟨w, rfl, h⟩)
    · exact h
    · rw [Rfc4517.ia5String, Rx.many_chr] at h ⊢
      intro c hc
      simp at hc
      rcases hc with hc | rfl
      · exact h c hc
      · decide
  · exact Or.inl

/-- **C57, Numeric String** -/
theorem c57_numeric_string (s : Str) : Accepts Syntax.ruleNumericString s ↔ orNewline Rfc4517.numericString s := by
  rw [Syntax.ruleNumericString, SyntaxP.accepts_anchored, Syntax.numericString, Rx.lang_plus, SyntaxP.digit_eq]; rfl

/-- **C57, Printable String** -/
theorem c57_printable_string (s : Str) : Accepts Syntax.rulePrintableString s ↔ orNewline Rfc4517.printableString s := by
  rw [Syntax.rulePrintableString, SyntaxP.accepts_anchored, SyntaxP.lang_printable]

/-- **C57, Other Mailbox**. A newline at the end is part of the mailbox. -/
theorem c57_other_mailbox (s : Str) : Accepts Syntax.ruleOtherMailbox s ↔ orNewline Rfc4517.otherMailbox s := by
  rw [Syntax.ruleOtherMailbox, SyntaxP.accepts_anchored, Syntax.otherMailbox, Rx.lang_cat]
  simp only [List.map, Rx.lang_lit, SyntaxP.lang_printable, SyntaxP.lang_ia5]; rfl

/-- **C57, Telex Number** -/
theorem c57_telex (s : Str) : Accepts Syntax.ruleTelex s ↔ orNewline Rfc4517.telex s := by
  rw [Syntax.ruleTelex, SyntaxP.accepts_anchored, Syntax.telex, Rx.lang_cat]
  simp only [List.map, Rx.lang_lit, SyntaxP.lang_printable]; rfl

/-- **C57, Postal Address** -/
theorem c57_postal_address (s : Str) : Accepts Syntax.rulePostalAddress s ↔ orNewline Rfc4517.postalAddress s := by
  have hl : Syntax.postalLine.Lang = Rfc4517.postalLine := by
    rw [Syntax.postalLine, Rx.lang_plus, SyntaxP.escaped_dollar]; rfl
  rw [Syntax.rulePostalAddress, SyntaxP.accepts_anchored, Syntax.postalAddress]
  simp only [Rx.lang_cat, List.map, cats, Rx.Lang, Rx.lang_lit, hl]; rfl

/-- **C57, Substring Assertion**: the code does not anchor the end, so it accepts every text that *begins* with a substring assertion,
that is, every text containing an asterisk before the first stray backslash. -/
theorem c57_substring_prefix (s : Str) : Accepts Syntax.ruleSubstringAssertion s ↔ ∃ u v, s = u ++ v ∧ Rfc4517.substringAssertion u := by
  have hl : Syntax.substring.Lang = Rfc4517.substring := by
    rw [Syntax.substring, Rx.lang_plus, SyntaxP.escaped_star]; rfl
  rw [Syntax.ruleSubstringAssertion, SyntaxP.accepts_prefix, Syntax.substringAssertion]
  simp only [Rx.lang_cat, List.map, cats, Rx.Lang, Rx.lang_lit, Rx.lang_opt, hl]; rfl

/-- **C57, Substring Assertion, the part that holds**: every substring assertion is accepted. -/
theorem c57_substring_partial (s : Str) (h : Rfc4517.substringAssertion s) : Accepts Syntax.ruleSubstringAssertion s :=
  (c57_substring_prefix s).2 ⟨s, [], by simp, h⟩

/-- **C57, Integer**: exact, except that `0` is refused. -/
theorem c57_integer (s : Str) : Accepts Syntax.ruleInteger s ↔ orNewline (fun s => Rfc4517.integer s ∧ s ≠ ['0']) s := by
  rw [Syntax.ruleInteger, SyntaxP.accepts_anchored]
  have : Syntax.integer.Lang = fun s => Rfc4517.integer s ∧ s ≠ ['0'] := by
    funext s
    simp only [Syntax.integer, Rx.lang_cat, List.map, cats, Rx.Lang, Rx.lang_lit, Rx.lang_opt, SyntaxP.range19, SyntaxP.digit_eq, eq_iff_iff]
    constructor
    · rintro ⟨u, v, rfl, hu, w, x, rfl, ⟨c, rfl, hc⟩, hx⟩
      simp only [Bool.and_eq_true, bne_iff_ne] at hc
      rcases hu with rfl | hu
      · refine ⟨Or.inr ?_, by simp; intro h; exact absurd h hc.2⟩
        rcases SyntaxP.many_cases _ _ hx with rfl | hx
        · exact Or.inl ⟨c, rfl, hc.1⟩
        · exact Or.inr ⟨[c], x, rfl, ⟨c, rfl, by simp [hc]⟩, hx⟩
      · rw [show u = ['-'] from hu]
        exact ⟨Or.inl ⟨['-'], c :: x, rfl, rfl, [c], x, rfl, ⟨c, rfl, by simp [hc]⟩, hx⟩, by simp⟩
    · rintro ⟨h, h0⟩
      rcases h with ⟨u, v, rfl, hu, w, x, rfl, hw, hx⟩ | h | ⟨u, v, rfl, hu, hv⟩
      · exact ⟨u, w ++ x, rfl, Or.inr hu, w, x, rfl, hw, hx⟩
      · obtain ⟨c, rfl, hc⟩ := h
        have : c ≠ '0' := by simpa using h0
        exact ⟨[], [c], rfl, Or.inl rfl, [c], [], rfl, ⟨c, rfl, by simp [hc, this]⟩, [], rfl, by simp⟩
      · exact ⟨[], u ++ v, rfl, Or.inl rfl, u, v, rfl, hu, SyntaxP.many_of_many1 _ _ hv⟩
  rw [this]

/-- **C57, OID**, exactly what the code accepts: numbers may have leading zeros. -/
theorem c57_oid (s : Str) : Accepts Syntax.ruleOID s ↔
    orNewline (alt Rfc4517.descr (cat (many1 Rfc4517.DIGIT) (many1 (cat (lit ['.']) (many1 Rfc4517.DIGIT))))) s := by
  rw [Syntax.ruleOID, SyntaxP.accepts_anchored, Syntax.oid, Rx.Lang, SyntaxP.lang_descr, SyntaxP.lang_numericoid]

/-- **C57, OID, the part that holds**: every OID is accepted. -/
theorem c57_oid_partial (s : Str) (h : Rfc4517.oid s) : Accepts Syntax.ruleOID s := by
  rw [c57_oid]
  left
  exact SyntaxP.alt_mono (fun _ h => h) (SyntaxP.cat_mono SyntaxP.number_digits
    (SyntaxP.many1_mono (SyntaxP.cat_mono (fun _ h => h) SyntaxP.number_digits))) s h

/-- **C57, Facsimile Telephone Number**: exact, with the telephone numbers of `validate_phone_number` (C40). -/
theorem c57_fax (s : Str) : Accepts .fax s ↔ Rfc4517.fax (fun p => validatePhone p = true ∧ '$' ∉ p) s := by
  simp only [Accepts, Syntax.Rule.validate, Syntax.validateFax]
  have hnil : pySplit '$' s ≠ [] := pySplit_ne_nil _ _
  have hj := join_split '$' s
  have hmem := mem_split '$' s
  constructor
  · intro h
    cases hs : pySplit '$' s with
    | nil => exact absurd hs hnil
    | cons p ps =>
      rw [hs] at h hj hmem
      simp only at h
      split at h
      · simp at h
      · rename_i hp
        split at h
        · rename_i hps
          refine ⟨p, (ps.map (fun q => '$' :: q)).flatten, ?_, ⟨by simpa using hp, hmem p (by simp)⟩, ps.map (fun q => '$' :: q), rfl, ?_⟩
          · rw [← hj]
            clear hj hs hmem hp hps hnil h
            induction ps generalizing p with
            | nil => simp [pyJoin]
            | cons q ps ih => rw [pyJoin_cons _ _ _ (by simp), ih q]; simp
          · intro u hu
            obtain ⟨q, hq, rfl⟩ := List.mem_map.1 hu
            refine ⟨['$'], q, rfl, rfl, ?_⟩
            have := List.all_eq_true.1 hps q hq
            simpa [Syntax.faxParameters, oneOf] using this
        · simp at h
  · rintro ⟨p, v, rfl, ⟨hp, hd⟩, l, rfl, hl⟩
    have : ∃ ps : List Str, l = ps.map (fun q => '$' :: q) ∧ ∀ q ∈ ps, q ∈ Syntax.faxParameters := by
      clear hnil hj hmem
      induction l with
      | nil => exact ⟨[], rfl, by simp⟩
      | cons u l ih =>
        obtain ⟨ps, rfl, hps⟩ := ih (fun u hu => hl u (by simp [hu]))
        obtain ⟨d, q, rfl, hd', hq⟩ := hl u (by simp)
        rw [show d = ['$'] from hd']
        exact ⟨q :: ps, by simp, by intro x hx; simp at hx; rcases hx with rfl | hx; exact hq; exact hps x hx⟩
    obtain ⟨ps, rfl, hps⟩ := this
    have hsplit : pySplit '$' (p ++ (ps.map (fun q => '$' :: q)).flatten) = p :: ps := by
      have hj2 : p ++ (ps.map (fun q => '$' :: q)).flatten = pyJoin ['$'] (p :: ps) := by
        clear hl hps hnil hj hmem hp hd
        induction ps generalizing p with
        | nil => simp [pyJoin]
        | cons q ps ih => rw [pyJoin_cons _ _ _ (by simp), ← ih q]; simp
      rw [hj2]
      apply split_join
      · simp
      · intro q hq
        simp at hq
        rcases hq with rfl | hq
        · exact hd
        · have := hps q hq
          revert this
          have hall : ∀ q ∈ Syntax.faxParameters, '$' ∉ q := by decide
          exact hall q
    rw [hsplit]
    simp only [hp, Bool.not_true, Bool.false_eq_true, if_false]
    rw [if_pos]
    rw [List.all_eq_true]
    intro q hq
    simpa using hps q hq

/-- **C57, DN, the part that holds**: every DN of RFC 4514 is accepted that has at least one RDN and whose values are not empty and do
not begin with an equals sign. -/
theorem c57_dn_partial (s : Str) (h : Rfc4517.dnOf Rfc4517.oid (fun v => Rfc4517.attributeValue v ∧ v ≠ [] ∧ v.head? ≠ some '=') s) :
    Accepts Syntax.ruleDN s := by
  rw [Syntax.ruleDN, SyntaxP.accepts_anchored, SyntaxP.lang_dn]
  left
  refine SyntaxP.dnOf_mono SyntaxP.number_oid ?_ s h
  rintro v ⟨hv, hn, he⟩
  rw [Syntax.attributeValue, Rx.Lang]
  rcases hv with hv | hv
  · exact Or.inl (SyntaxP.string_of_spec v hv hn he)
  · right; rw [SyntaxP.lang_hexstring]; exact hv

/-- **C57, DN**: what is accepted has the shape of a DN: names of attributes (numbers may have leading zeros), equals signs, and values
that are hexadecimal strings or non-empty runs of ordinary characters and escapes (of the RFC, or of NUL) that do not begin with an unescaped
space, sharp or equals sign. Unlike in the RFC such a value may end in an unescaped space. -/
theorem c57_dn_shape (s : Str) (h : Accepts Syntax.ruleDN s) : orNewline (Rfc4517.dnOf
    (alt Rfc4517.descr (cat (many1 Rfc4517.DIGIT) (many1 (cat (lit ['.']) (many1 Rfc4517.DIGIT)))))
    (fun v => Rfc4517.hexstring v ∨ (many1 (alt Rfc4517.stringchar (alt Rfc4517.pair (lit ['\\', '\x00']))) v ∧
      v.head? ≠ some ' ' ∧ v.head? ≠ some '#' ∧ v.head? ≠ some '='))) s := by
  rw [Syntax.ruleDN, SyntaxP.accepts_anchored, SyntaxP.lang_dn] at h
  have hm : ∀ s, Rfc4517.dnOf (Rx.Lang Syntax.attributeType) (Rx.Lang Syntax.attributeValue) s → Rfc4517.dnOf
    (alt Rfc4517.descr (cat (many1 Rfc4517.DIGIT) (many1 (cat (lit ['.']) (many1 Rfc4517.DIGIT)))))
    (fun v => Rfc4517.hexstring v ∨ (many1 (alt Rfc4517.stringchar (alt Rfc4517.pair (lit ['\\', '\x00']))) v ∧
      v.head? ≠ some ' ' ∧ v.head? ≠ some '#' ∧ v.head? ≠ some '=')) s := by
    refine SyntaxP.dnOf_mono ?_ ?_
    · intro s h; rw [Syntax.attributeType, Rx.Lang, SyntaxP.lang_descr, SyntaxP.lang_numericoid] at h; exact h
    · rintro v (h | h)
      · exact Or.inr (SyntaxP.spec_of_string v h)
      · left; rw [SyntaxP.lang_hexstring] at h; exact h
  rcases h with h | ⟨w, rfl, h⟩
  · exact Or.inl (hm s h)
  · exact Or.inr ⟨w, rfl, hm w h⟩

/-- **C57, Delivery Method, the part that holds**: every value is accepted that does not use the words `teletex` and `videotex`. -/
theorem c57_delivery_partial (s : Str)
    (h : (fun pdm : Language => cat pdm (many (cats [Rfc4517.WSP, lit ['$'], Rfc4517.WSP, pdm])))
      (oneOf [str "any", str "mhs", str "physical", str "telex", str "g3fax", str "g4fax", str "ia5", str "telephone"]) s) :
    Accepts Syntax.ruleDeliveryMethod s := by
  rw [Syntax.ruleDeliveryMethod, SyntaxP.accepts_anchored]
  left
  have hw : ∀ s, Rfc4517.WSP s → (Rx.star (.cls (inClass pySpace))).Lang s := by
    refine SyntaxP.many_mono ?_
    intro s hs
    exact ⟨' ', hs, by decide⟩
  have hp : ∀ s, oneOf [str "any", str "mhs", str "physical", str "telex", str "g3fax", str "g4fax", str "ia5", str "telephone"] s →
      Syntax.pdm.Lang s := by
    intro s hs
    rw [Syntax.pdm, Rx.lang_any_lit]
    have : ∀ w ∈ [str "any", str "mhs", str "physical", str "telex", str "g3fax", str "g4fax", str "ia5", str "telephone"], w ∈ Syntax.pdmWords := by decide
    exact this s hs
  rw [Syntax.deliveryMethod, Rx.lang_cat]
  simp only [List.map, cats, Rx.Lang, Rx.lang_cat, Rx.lang_lit]
  exact SyntaxP.cat_mono hp (SyntaxP.many_mono (SyntaxP.cat_mono hw (SyntaxP.cat_mono (fun _ h => h) (SyntaxP.cat_mono hw hp)))) s h

namespace SyntaxP
open Syntax

/-- the two digits of a number below 100 -/
def dd (n : Nat) : Str := [Char.ofNat (48 + n / 10), Char.ofNat (48 + n % 10)]

theorem digit_iff (c : Char) : digit c = true ↔ 48 ≤ c.toNat ∧ c.toNat ≤ 57 := by
  simp only [digit, range, Char.le_def, UInt32.le_iff_toNat_le, Bool.and_eq_true, decide_eq_true_eq]
  exact Iff.rfl

theorem ofNat_digit (k : Nat) (h : k < 10) : (Char.ofNat (48 + k)).toNat = 48 + k := by
  have : ∀ k, k < 10 → (Char.ofNat (48 + k)).toNat = 48 + k := by decide
  exact this k h

theorem take2_dd (n : Nat) (hn : n < 100) (t : Str) : take2 (dd n ++ t) = some (n, t) := by
  have h1 := ofNat_digit (n / 10) (by omega)
  have h2 := ofNat_digit (n % 10) (by omega)
  have d1 : digit (Char.ofNat (48 + n / 10)) = true := (digit_iff _).2 (by omega)
  have d2 : digit (Char.ofNat (48 + n % 10)) = true := (digit_iff _).2 (by omega)
  simp only [dd, List.cons_append, List.nil_append, take2, d1, d2, Bool.and_self, if_true, h1, h2]
  congr 2
  omega

theorem take2_some (s t : Str) (n : Nat) (h : take2 s = some (n, t)) : n < 100 ∧ s = dd n ++ t := by
  match s with
  | [] => simp [take2] at h
  | [_] => simp [take2] at h
  | a :: b :: t' =>
    simp only [take2] at h
    split at h
    · rename_i hd
      simp only [Bool.and_eq_true, digit_iff] at hd
      simp only [Option.some.injEq, Prod.mk.injEq] at h
      obtain ⟨rfl, rfl⟩ := h
      refine ⟨by omega, ?_⟩
      have e1 : (10 * (a.toNat - 48) + (b.toNat - 48)) / 10 = a.toNat - 48 := by omega
      have e2 : (10 * (a.toNat - 48) + (b.toNat - 48)) % 10 = b.toNat - 48 := by omega
      simp only [dd, e1, e2, show 48 + (a.toNat - 48) = a.toNat by omega, show 48 + (b.toNat - 48) = b.toNat by omega, Char.ofNat_toNat]
      rfl
    · simp at h

theorem take2_nondigit (c : Char) (t : Str) (h : digit c = false) : take2 (c :: t) = none := by
  cases t with
  | nil => rfl
  | cons d t => simp [take2, h]

/-- the text does not start with a digit -/
def Stop (s : Str) : Prop := ∀ c, s.head? = some c → digit c = false

theorem take2_stop (s : Str) (h : Stop s) : take2 s = none := by
  cases s with
  | nil => rfl
  | cons c t => exact take2_nondigit c t (h c rfl)

theorem take2?_dd (n : Nat) (hn : n < 100) (t : Str) : take2? (dd n ++ t) = (some n, t) := by
  simp [take2?, take2_dd n hn]

theorem take2?_stop (s : Str) (h : Stop s) : take2? s = (none, s) := by simp [take2?, take2_stop s h]

/-- an end of text for `$` -/
def End (e : Str) : Prop := e = [] ∨ e = ['\n']

theorem end_stop (e : Str) (h : End e) : Stop e := by
  rcases h with rfl | rfl
  · intro c hc; simp at hc
  · intro c hc; simp at hc; subst hc; decide

abbrev Zone : Language := alt (lit ['Z']) (cats [chr (fun c => c == '+' || c == '-'), Rfc4517.num2 0 99, opt (Rfc4517.num2 0 99)])
abbrev Frac : Language := opt (cat (chr (fun c => c == '.' || c == ',')) (many1 Rfc4517.DIGIT))

/-- the value read for a time zone -/
inductive ZoneIs : Str → Option (Nat × Option Nat) → Prop
  | z : ZoneIs ['Z'] none
  | h (c : Char) (n : Nat) : (c = '+' ∨ c = '-') → n < 100 → ZoneIs (c :: dd n) (some (n, none))
  | hm (c : Char) (n m : Nat) : (c = '+' ∨ c = '-') → n < 100 → m < 100 → ZoneIs (c :: (dd n ++ dd m)) (some (n, some m))

theorem takeZone_some (s : Str) (z : Option (Nat × Option Nat)) (h : takeZone s = some z) : ∃ w e, s = w ++ e ∧ End e ∧ ZoneIs w z := by
  cases s with
  | nil => simp [takeZone] at h
  | cons c t =>
    simp only [takeZone] at h
    split at h
    · rename_i hc
      subst hc
      split at h
      · rename_i ht
        simp at h; subst h
        exact ⟨['Z'], t, rfl, ht, .z⟩
      · simp at h
    · split at h
      · rename_i hc
        cases ht : take2 t with
        | none => simp [ht] at h
        | some p =>
          obtain ⟨n, t'⟩ := p
          obtain ⟨hn, rfl⟩ := take2_some _ _ _ ht
          simp only [ht] at h
          split at h
          · rename_i he
            simp at h; subst h
            cases hm : take2 t' with
            | none =>
              simp only [take2?, hm] at he ⊢
              exact ⟨c :: dd n, t', by simp, he, .h c n hc hn⟩
            | some q =>
              obtain ⟨m, t''⟩ := q
              obtain ⟨hm', rfl⟩ := take2_some _ _ _ hm
              simp only [take2?, hm] at he ⊢
              exact ⟨c :: (dd n ++ dd m), t'', by simp, he, .hm c n m hc hn hm'⟩
          · simp at h
      · simp at h

theorem takeZone_of (w e : Str) (z : Option (Nat × Option Nat)) (he : End e) (h : ZoneIs w z) : takeZone (w ++ e) = some z := by
  have he' : (e = [] ∨ e = ['\n']) := he
  cases h with
  | z => simp [takeZone, he']
  | h c n hc hn =>
    have : c ≠ 'Z' := by rintro rfl; simp at hc
    simp only [List.cons_append, takeZone, this, if_false, hc, if_true, take2_dd n hn, take2?_stop e (end_stop e he), he']
  | hm c n m hc hn hm =>
    have : c ≠ 'Z' := by rintro rfl; simp at hc
    simp only [List.cons_append, List.append_assoc, takeZone, this, if_false, hc, if_true, take2_dd n hn, take2?_dd m hm, he']

theorem zone_stop (w e : Str) (z) (h : ZoneIs w z) : Stop (w ++ e) ∧ ∀ c, (w ++ e).head? = some c → c ≠ '.' ∧ c ≠ ',' := by
  cases h with
  | z =>
    refine ⟨?_, ?_⟩ <;> intro c hc <;> simp at hc <;> subst hc <;> decide
  | h c n hc hn =>
    refine ⟨?_, ?_⟩ <;> intro d hd <;> simp at hd <;> subst hd <;> rcases hc with rfl | rfl <;> decide
  | hm c n m hc hn hm =>
    refine ⟨?_, ?_⟩ <;> intro d hd <;> simp at hd <;> subst hd <;> rcases hc with rfl | rfl <;> decide

theorem skipFraction_spec (s : Str) : ∃ f, s = f ++ skipFraction s ∧ Frac f := by
  match s with
  | [] => exact ⟨[], rfl, Or.inl rfl⟩
  | [c] => exact ⟨[], rfl, Or.inl rfl⟩
  | c :: d :: t =>
    simp only [skipFraction]
    split
    · rename_i h
      simp only [Bool.and_eq_true] at h
      refine ⟨c :: d :: t.takeWhile digit, by simp, Or.inr ⟨[c], d :: t.takeWhile digit, rfl, ⟨c, rfl, h.1⟩, ?_⟩⟩
      rw [Rfc4517.DIGIT, Rx.many1_chr, ← digit_eq]
      refine ⟨by simp, ?_⟩
      intro x hx
      simp at hx
      rcases hx with rfl | hx
      · exact h.2
      · exact List.all_eq_true.1 (List.all_takeWhile) x hx
    · exact ⟨[], rfl, Or.inl rfl⟩

theorem dropWhile_stop (a b : Str) (ha : ∀ c ∈ a, digit c = true) (hb : Stop b) : (a ++ b).dropWhile digit = b := by
  induction a with
  | nil =>
    cases b with
    | nil => rfl
    | cons c t => simp [List.dropWhile_cons, hb c rfl]
  | cons c a ih => simp [List.dropWhile_cons, ha c (by simp), ih (fun x hx => ha x (by simp [hx]))]

theorem skipFraction_of (f r : Str) (hf : Frac f) (hs : Stop r) (hr : ∀ c, r.head? = some c → c ≠ '.' ∧ c ≠ ',') : skipFraction (f ++ r) = r := by
  rcases hf with rfl | ⟨u, v, rfl, ⟨c, rfl, hc⟩, hv⟩
  · match r with
    | [] => rfl
    | [_] => rfl
    | c :: d :: t =>
      have := hr c rfl
      simp [skipFraction, this.1, this.2]
  · rw [Rfc4517.DIGIT, Rx.many1_chr, ← digit_eq] at hv
    cases v with
    | nil => exact absurd rfl hv.1
    | cons d v =>
      simp only [List.cons_append, List.nil_append, skipFraction, hc, hv.2 d (by simp), Bool.and_self, if_true]
      exact dropWhile_stop v r (fun x hx => hv.2 x (by simp [hx])) hs

theorem frac_stop (f r : Str) (hf : Frac f) (hs : Stop r) : Stop (f ++ r) := by
  rcases hf with rfl | ⟨u, v, rfl, ⟨c, rfl, hc⟩, hv⟩
  · exact hs
  · intro d hd
    simp at hd; subst hd
    simp at hc
    rcases hc with rfl | rfl <;> decide

theorem num2_iff (lo hi : Nat) (hh : hi < 100) (w : Str) : Rfc4517.num2 lo hi w ↔ ∃ n, lo ≤ n ∧ n ≤ hi ∧ w = dd n := by
  constructor
  · rintro ⟨n, h1, h2, _, rfl⟩; exact ⟨n, h1, h2, rfl⟩
  · rintro ⟨n, h1, h2, rfl⟩; exact ⟨n, h1, h2, by omega, rfl⟩

theorem digit_pair (a b : Str) (ha : Rfc4517.DIGIT a) (hb : Rfc4517.DIGIT b) : ∃ n, n < 100 ∧ a ++ b = dd n := by
  obtain ⟨c, rfl, hc⟩ := ha
  obtain ⟨d, rfl, hd⟩ := hb
  rw [← digit_eq] at hc hd
  have : take2 ([c] ++ [d]) = some (10 * (c.toNat - 48) + (d.toNat - 48), []) := by simp [take2, hc, hd]
  obtain ⟨h1, h2⟩ := take2_some _ _ _ this
  exact ⟨_, h1, by simpa using h2⟩

theorem pair_digit (n : Nat) (hn : n < 100) : ∃ a b, dd n = a ++ b ∧ Rfc4517.DIGIT a ∧ Rfc4517.DIGIT b := by
  refine ⟨[Char.ofNat (48 + n / 10)], [Char.ofNat (48 + n % 10)], rfl, ⟨_, rfl, ?_⟩, ⟨_, rfl, ?_⟩⟩ <;> rw [← digit_eq, digit_iff]
  · have := ofNat_digit (n / 10) (by omega); omega
  · have := ofNat_digit (n % 10) (by omega); omega

/-- the text of an optional two-digit group -/
def odd : Option Nat → Str
  | none => []
  | some n => dd n

/-- The groups of a match, independent of how it is found. -/
structure Reads (w : Str) (g : GT) : Prop where
  reads : ∃ y1 y2 f z, y1 < 100 ∧ y2 < 100 ∧ w = dd y1 ++ dd y2 ++ dd g.month ++ dd g.day ++ dd g.hour ++ odd g.minute ++ odd g.second ++ f ++ z ∧
    Frac f ∧ ZoneIs z g.tz
  month : g.month < 100
  day : g.day < 100
  hour : g.hour < 100
  minute : ∀ m, g.minute = some m → m < 100
  second : ∀ m, g.second = some m → m < 100
  order : g.minute = none → g.second = none

theorem take2?_cases (s : Str) : ∃ o, (take2? s).1 = o ∧ s = odd o ++ (take2? s).2 ∧ (∀ m, o = some m → m < 100) ∧ (o = none → (take2? s).2 = s ∧ take2 s = none) := by
  simp only [take2?]
  cases h : take2 s with
  | none => exact ⟨none, by simp [odd]⟩
  | some p =>
    obtain ⟨n, t⟩ := p
    obtain ⟨h1, h2⟩ := take2_some _ _ _ h
    exact ⟨some n, rfl, h2, by simpa using h1, by simp⟩

theorem gtMatch_some (s : Str) (g : GT) (h : gtMatch s = some g) : ∃ w e, s = w ++ e ∧ End e ∧ Reads w g := by
  simp only [gtMatch] at h
  cases h1 : take2 s with
  | none => simp [h1] at h
  | some p1 =>
  obtain ⟨y1, s1⟩ := p1
  obtain ⟨b1, rfl⟩ := take2_some _ _ _ h1
  cases h2 : take2 s1 with
  | none => simp [h1, h2] at h
  | some p2 =>
  obtain ⟨y2, s2⟩ := p2
  obtain ⟨b2, rfl⟩ := take2_some _ _ _ h2
  cases h3 : take2 s2 with
  | none => simp [h1, h2, h3] at h
  | some p3 =>
  obtain ⟨mo, s3⟩ := p3
  obtain ⟨b3, rfl⟩ := take2_some _ _ _ h3
  cases h4 : take2 s3 with
  | none => simp [h1, h2, h3, h4] at h
  | some p4 =>
  obtain ⟨da, s4⟩ := p4
  obtain ⟨b4, rfl⟩ := take2_some _ _ _ h4
  cases h5 : take2 s4 with
  | none => simp [h1, h2, h3, h4, h5] at h
  | some p5 =>
  obtain ⟨ho, s5⟩ := p5
  obtain ⟨b5, rfl⟩ := take2_some _ _ _ h5
  simp only [h1, h2, h3, h4, h5, Option.bind_eq_bind, Option.bind_some] at h
  obtain ⟨mi, hmi, e6, b6, n6⟩ := take2?_cases s5
  obtain ⟨se, hse, e7, b7, n7⟩ := take2?_cases (take2? s5).2
  cases h8 : takeZone (skipFraction (take2? (take2? s5).2).2) with
  | none => simp [h8] at h
  | some z =>
    simp [h8] at h
    subst h
    obtain ⟨f, hf, hfr⟩ := skipFraction_spec (take2? (take2? s5).2).2
    obtain ⟨w, e, hw, he, hz⟩ := takeZone_some _ _ h8
    refine ⟨dd y1 ++ dd y2 ++ dd mo ++ dd da ++ dd ho ++ odd mi ++ odd se ++ f ++ w, e, ?_, he, ?_⟩
    · rw [hw] at hf
      rw [hf] at e7
      rw [e7] at e6
      rw [e6]
      simp only [List.append_assoc]
    · refine ⟨⟨y1, y2, f, w, b1, b2, by rw [hmi, hse], hfr, hz⟩, b3, b4, b5, by rw [hmi]; exact b6, by rw [hse]; exact b7, ?_⟩
      intro hn
      simp only at hn ⊢
      rw [hmi] at hn
      obtain ⟨q1, q2⟩ := n6 hn
      rw [q1]
      simp [take2?, q2]

theorem gtMatch_of (w e : Str) (g : GT) (he : End e) (hr : Reads w g) : gtMatch (w ++ e) = some g := by
  obtain ⟨⟨y1, y2, f, z, b1, b2, rfl, hf, hz⟩, b3, b4, b5, b6, b7, ho⟩ := hr
  obtain ⟨mo, da, hou, mi, se, tz⟩ := g
  simp only at *
  obtain ⟨st, nd⟩ := zone_stop z e tz hz
  have st2 := frac_stop f (z ++ e) hf st
  have hsk := skipFraction_of f (z ++ e) hf st nd
  have htz := takeZone_of z e tz he hz
  simp only [gtMatch, List.append_assoc, take2_dd _ b1, take2_dd _ b2, take2_dd _ b3, take2_dd _ b4, take2_dd _ b5, Option.bind_eq_bind,
    Option.bind_some]
  cases mi with
  | none =>
    have := ho rfl
    subst this
    simp only [odd, List.nil_append, take2?_stop _ st2, hsk, htz]; rfl
  | some m =>
    have hm := b6 m rfl
    cases se with
    | none => simp only [odd, List.nil_append, take2?_dd m hm, take2?_stop _ st2, hsk, htz]; rfl
    | some x =>
      have hx := b7 x rfl
      simp only [odd, take2?_dd m hm, take2?_dd x hx, hsk, htz]; rfl

/-- the ranges that are checked -/
def InRange (g : GT) : Prop :=
  1 ≤ g.month ∧ g.month ≤ 12 ∧ 1 ≤ g.day ∧ g.day ≤ 31 ∧ g.hour ≤ 23 ∧ (∀ m, g.minute = some m → m ≤ 59) ∧ (∀ s, g.second = some s → s ≤ 60) ∧
    ∀ h m, g.tz = some (h, m) → h ≤ 23 ∧ ∀ x, m = some x → x ≤ 59

theorem validateGT_iff (s : Str) : validateGT s = .ok () ↔ ∃ g, gtMatch s = some g ∧ InRange g := by
  simp only [validateGT]
  cases hg : gtMatch s with
  | none => simp
  | some g =>
    obtain ⟨mo, da, ho, mi, se, tz⟩ := g
    simp only [Option.some.injEq, exists_eq_left', InRange]
    cases mi <;> cases se <;> rcases tz with _ | ⟨h, _ | m⟩ <;> simp <;> grind

end SyntaxP

/-- **C57, Generalized Time** -/
theorem c57_generalized_time (s : Str) : Syntax.validateGT s = .ok () ↔ orNewline Rfc4517.generalizedTime s := by
  have key : ∀ w, Rfc4517.generalizedTime w ↔ ∃ g, SyntaxP.Reads w g ∧ SyntaxP.InRange g := by
    intro w
    constructor
    · rintro ⟨y, r1, rfl, ⟨a, r, rfl, ha, b, r', rfl, hb, c, d, rfl, hc, hd⟩, mo, r2, rfl, hmo, da, r3, rfl, hda, ho, r4, rfl, hho, mi, r5, rfl, hmi, f, z, rfl, hf, hz⟩
      obtain ⟨y1, hy1, ey1⟩ := SyntaxP.digit_pair a b ha hb
      obtain ⟨y2, hy2, ey2⟩ := SyntaxP.digit_pair c d hc hd
      obtain ⟨mo, hm1, hm2, rfl⟩ := (SyntaxP.num2_iff 1 12 (by omega) _).1 hmo
      obtain ⟨da, hd1, hd2, rfl⟩ := (SyntaxP.num2_iff 1 31 (by omega) _).1 hda
      obtain ⟨ho, _, hh2, rfl⟩ := (SyntaxP.num2_iff 0 23 (by omega) _).1 hho
      have hz' : ∃ tz, SyntaxP.ZoneIs z tz ∧ ∀ h m, tz = some (h, m) → h ≤ 23 ∧ ∀ x, m = some x → x ≤ 59 := by
        rcases hz with hz | ⟨c, r, rfl, ⟨c', rfl, hc'⟩, h, m, rfl, hh, hm⟩
        · rw [show z = ['Z'] from hz]; exact ⟨none, .z, by simp⟩
        · obtain ⟨h, _, hh3, rfl⟩ := (SyntaxP.num2_iff 0 23 (by omega) _).1 hh
          simp at hc'
          rcases hm with rfl | hm
          · exact ⟨some (h, none), by simpa using SyntaxP.ZoneIs.h c' h hc' (by omega), by simp; omega⟩
          · obtain ⟨m, _, hm3, rfl⟩ := (SyntaxP.num2_iff 0 59 (by omega) _).1 hm
            exact ⟨some (h, some m), SyntaxP.ZoneIs.hm c' h m hc' (by omega) (by omega), by simp; omega⟩
      obtain ⟨tz, hz1, hz2⟩ := hz'
      have hms : ∃ mi' se', mi = SyntaxP.odd mi' ++ SyntaxP.odd se' ∧ (∀ m, mi' = some m → m ≤ 59) ∧ (∀ m, se' = some m → m ≤ 60) ∧ (mi' = none → se' = none) := by
        rcases hmi with rfl | ⟨u, v, rfl, hu, hv⟩
        · exact ⟨none, none, rfl, by simp, by simp, by simp⟩
        · obtain ⟨m, _, hm3, rfl⟩ := (SyntaxP.num2_iff 0 59 (by omega) _).1 hu
          rcases hv with rfl | hv
          · exact ⟨some m, none, by simp [SyntaxP.odd], by simpa using hm3, by simp, by simp⟩
          · obtain ⟨x, _, hx3, rfl⟩ := (SyntaxP.num2_iff 0 60 (by omega) _).1 hv
            exact ⟨some m, some x, rfl, by simpa using hm3, by simpa using hx3, by simp⟩
      obtain ⟨mi', se', rfl, q1, q2, q3⟩ := hms
      refine ⟨⟨mo, da, ho, mi', se', tz⟩, ⟨⟨y1, y2, f, z, hy1, hy2, ?_, hf, hz1⟩, ?_, ?_, ?_, ?_, ?_, q3⟩, hm1, hm2, hd1, hd2, hh2, q1, q2, hz2⟩
      · rw [← ey1, ← ey2]; simp only [List.append_assoc]
      · simp only; omega
      · simp only; omega
      · simp only; omega
      · intro m hm; have := q1 m hm; omega
      · intro m hm; have := q2 m hm; omega
    · rintro ⟨⟨mo, da, ho, mi, se, tz⟩, ⟨⟨y1, y2, f, z, hy1, hy2, rfl, hf, hz⟩, _, _, _, _, _, q3⟩, hm1, hm2, hd1, hd2, hh2, q1, q2, hz2⟩
      simp only at *
      obtain ⟨a, b, e1, ha, hb⟩ := SyntaxP.pair_digit y1 hy1
      obtain ⟨c, d, e2, hc, hd⟩ := SyntaxP.pair_digit y2 hy2
      refine ⟨SyntaxP.dd y1 ++ SyntaxP.dd y2, SyntaxP.dd mo ++ (SyntaxP.dd da ++ (SyntaxP.dd ho ++ ((SyntaxP.odd mi ++ SyntaxP.odd se) ++ (f ++ z)))), by simp only [List.append_assoc], ?_,
        _, _, rfl, (SyntaxP.num2_iff 1 12 (by omega) _).2 ⟨mo, hm1, hm2, rfl⟩, _, _, rfl, (SyntaxP.num2_iff 1 31 (by omega) _).2 ⟨da, hd1, hd2, rfl⟩,
        _, _, rfl, (SyntaxP.num2_iff 0 23 (by omega) _).2 ⟨ho, by omega, hh2, rfl⟩, _, _, rfl, ?_, f, z, rfl, hf, ?_⟩
      · rw [e1, e2]
        exact ⟨a, b ++ (c ++ d), by simp, ha, b, c ++ d, rfl, hb, c, d, rfl, hc, hd⟩
      · cases mi with
        | none => rw [q3 rfl]; exact Or.inl rfl
        | some m =>
          refine Or.inr ⟨SyntaxP.dd m, SyntaxP.odd se, rfl, (SyntaxP.num2_iff 0 59 (by omega) _).2 ⟨m, by omega, q1 m rfl, rfl⟩, ?_⟩
          cases se with
          | none => exact Or.inl rfl
          | some x => exact Or.inr ((SyntaxP.num2_iff 0 60 (by omega) _).2 ⟨x, by omega, q2 x rfl, rfl⟩)
      · cases hz with
        | z => exact Or.inl rfl
        | h c n hc hn =>
          have := hz2 n none rfl
          exact Or.inr ⟨[c], SyntaxP.dd n, rfl, ⟨c, rfl, by simpa using hc⟩, SyntaxP.dd n, [], by simp, (SyntaxP.num2_iff 0 23 (by omega) _).2 ⟨n, by omega, this.1, rfl⟩, Or.inl rfl⟩
        | hm c n m hc hn hm =>
          have := hz2 n (some m) rfl
          exact Or.inr ⟨[c], SyntaxP.dd n ++ SyntaxP.dd m, rfl, ⟨c, rfl, by simpa using hc⟩, SyntaxP.dd n, SyntaxP.dd m, rfl,
            (SyntaxP.num2_iff 0 23 (by omega) _).2 ⟨n, by omega, this.1, rfl⟩, Or.inr ((SyntaxP.num2_iff 0 59 (by omega) _).2 ⟨m, by omega, this.2 m rfl, rfl⟩)⟩
  rw [SyntaxP.validateGT_iff]
  constructor
  · rintro ⟨g, hg, hr⟩
    obtain ⟨w, e, rfl, he, hw⟩ := SyntaxP.gtMatch_some s g hg
    have := (key w).2 ⟨g, hw, hr⟩
    rcases he with rfl | rfl
    · left; simpa using this
    · exact Or.inr ⟨w, rfl, this⟩
  · rintro (h | ⟨w, rfl, h⟩)
    · obtain ⟨g, hw, hr⟩ := (key s).1 h
      exact ⟨g, by simpa using SyntaxP.gtMatch_of s [] g (Or.inl rfl) hw, hr⟩
    · obtain ⟨g, hw, hr⟩ := (key w).1 h
      exact ⟨g, SyntaxP.gtMatch_of w _ g (Or.inr rfl) hw, hr⟩

example : Syntax.validateGT (str "20260229123060.5+0130") = .ok () ∧ Syntax.validateGT (str "2026022924Z") = .error .invalidSyntax := by decide +kernel

/-- **C57 is false of the code** in these ways: a newline is tolerated at the end; `0` is no Integer; the two misspelt words of Delivery
Method; parameters of Teletex Terminal Identifier cannot hold letters; Substring Assertion and Name And Optional UID accept anything after a
good beginning; OIDs may have leading zeros; the empty DN, empty values and values beginning with `=` are refused and values ending in a
space are accepted. -/
theorem c57_counterexamples :
    Accepts Syntax.ruleNumericString (str "12\n") ∧ ¬ Accepts Syntax.ruleInteger (str "0") ∧
    ¬ Accepts Syntax.ruleDeliveryMethod (str "teletex") ∧ Accepts Syntax.ruleDeliveryMethod (str "teletext") ∧
    ¬ Accepts Syntax.ruleTeletex (str "abc$page:a") ∧ Accepts Syntax.ruleSubstringAssertion (str "*\\") ∧
    Accepts Syntax.ruleNameAndOptionalUID (str "cn=a,,,") ∧ Accepts Syntax.ruleOID (str "01.02") ∧ ¬ Accepts Syntax.ruleDN [] ∧
    ¬ Accepts Syntax.ruleDN (str "cn=") ∧ ¬ Accepts Syntax.ruleDN (str "cn==") ∧ Accepts Syntax.ruleDN (str "cn=a ") := by
  decide +kernel

example : Accepts Syntax.ruleDN (str "cn=John\\, Jr+sn=#04a1,dc=example,2.5.4.3=x") := by decide +kernel
example : Accepts Syntax.ruleBitString (str "'0101'B") ∧ ¬ Accepts Syntax.ruleBitString (str "'0121'B") := by decide +kernel
example : Accepts Syntax.ruleInteger (str "-120") ∧ ¬ Accepts Syntax.ruleInteger (str "012") := by decide +kernel
example : Accepts Syntax.rulePostalAddress (str "1 Main St$\\24 City") ∧ ¬ Accepts Syntax.rulePostalAddress (str "a$$b") := by decide +kernel
example : Accepts .fax (str "+1 555 1234567$b4Width") ∧ ¬ Accepts .fax (str "+1 555 1234567$b5Width") := by decide +kernel

end Laurelin.Props
