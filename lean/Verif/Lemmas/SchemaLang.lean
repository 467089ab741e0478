import Verif.Lemmas.SchemaSpec
/-! The languages of the expressions of rfc4512.py are those of the grammar. -/
namespace Laurelin.SchemaSpec
open Laurelin Laurelin.Syntax Spec Spec.Abnf

/-- how the code reads a collapsed text -/
def codeLex : Rfc4512.Lex := ⟨fun c => c == ' ', Rfc4512.looseNumber⟩

theorem lang_descr : descr.Lang = Rfc4512.keystring := by
  rw [descr, Rx.lang_cat]; rfl

theorem lang_number : (Rx.plus (.cls digit)).Lang = Rfc4512.looseNumber := by
  rw [Rx.lang_plus]; rfl

theorem lang_numericoid : numericoid.Lang = Rfc4512.numericoid codeLex := by
  rw [numericoid, Rx.lang_cat]
  simp only [List.map, cats, Rx.lang_plus, Rx.lang_cat, Rx.lang_lit]
  rfl

theorem lang_oid : oid.Lang = Rfc4512.oid codeLex := by
  rw [oid, Rx.Lang, lang_descr, lang_numericoid]; rfl

theorem lang_SP : sp.Lang = Rfc4512.SP codeLex := by rw [sp, Rx.lang_plus]; rfl
theorem lang_WSP : wsp.Lang = Rfc4512.WSP codeLex := rfl

theorem SP_iff (a : Str) : Rfc4512.SP codeLex a ↔ Sp a := by rw [← lang_SP, lang_sp]
theorem WSP_iff (a : Str) : Rfc4512.WSP codeLex a ↔ ∀ c ∈ a, c = ' ' := by rw [← lang_WSP, lang_wsp]

theorem many_mono {A B : Language} (h : ∀ s, A s ↔ B s) (s : Str) : many A s ↔ many B s := by
  constructor <;> rintro ⟨l, rfl, hl⟩ <;> exact ⟨l, rfl, fun u hu => by first | exact (h u).1 (hl u hu) | exact (h u).2 (hl u hu)⟩
theorem many1_mono {A B : Language} (h : ∀ s, A s ↔ B s) (s : Str) : many1 A s ↔ many1 B s := by
  constructor <;> rintro ⟨l, hn, rfl, hl⟩ <;> exact ⟨l, hn, rfl, fun u hu => by first | exact (h u).1 (hl u hu) | exact (h u).2 (hl u hu)⟩

theorem lang_dstring (s : Str) : dstring.Lang s ↔ Rfc4512.dstring s := by
  rw [dstring, Rx.lang_plus, Rfc4512.dstring]
  refine many1_mono (fun u => ?_) s
  simp only [Rx.lang_any, List.mem_cons, List.not_mem_nil, or_false, exists_eq_or_imp, exists_eq_left, Rx.lang_cat, List.map, cats, Rx.lang_lit, Rx.Lang]
  simp only [Abnf.alt]
  constructor
  · rintro (h | h | h)
    · exact Or.inr (Or.inl h)
    · exact Or.inl h
    · exact Or.inr (Or.inr h)
  · rintro (h | h | h)
    · exact Or.inr (Or.inl h)
    · exact Or.inl h
    · exact Or.inr (Or.inr h)

theorem lang_qdstring : qdstring.Lang = Rfc4512.qdstring := by
  have : dstring.Lang = Rfc4512.dstring := funext fun s => propext (lang_dstring s)
  rw [qdstring, Rx.lang_cat]
  simp only [List.map, Rx.lang_lit, this]; rfl

theorem cats_assoc2 (a b c d e f : Language) (s : Str) :
    cats [a, b, cat c d, e, f] s ↔ cats [a, b, c, d, e, f] s := by
  simp only [cats, Abnf.cat]
  constructor
  · rintro ⟨u, _, rfl, hu, v, _, rfl, hv, _, x, rfl, ⟨p, q, rfl, hp, hq⟩, hx⟩
    exact ⟨u, _, rfl, hu, v, p ++ (q ++ x), by simp, hv, p, _, rfl, hp, q, x, rfl, hq, hx⟩
  · rintro ⟨u, _, rfl, hu, v, _, rfl, hv, p, _, rfl, hp, q, x, rfl, hq, hx⟩
    exact ⟨u, _, rfl, hu, v, (p ++ q) ++ x, by simp, hv, p ++ q, x, rfl, ⟨p, q, rfl, hp, hq⟩, hx⟩

theorem lang_qdstrings : qdstrings.Lang = Rfc4512.qdstrings codeLex := by
  funext s
  rw [qdstrings, Rx.Lang, Rx.lang_cat, lang_qdstring, Rfc4512.qdstrings]
  simp only [List.map, Rx.lang_lit, qdstringlist, Rx.lang_cat, Rx.Lang, lang_qdstring, lang_SP, lang_WSP, Abnf.alt]
  rw [show cats [Rfc4512.qdstring, many (cats [Rfc4512.SP codeLex, Rfc4512.qdstring])] = cat Rfc4512.qdstring (many (cat (Rfc4512.SP codeLex) Rfc4512.qdstring)) from rfl,
    cats_assoc2]

/-- `sep item` repeated, against a list of items -/
theorem many_list {α : Type} (A : Language) (B : α → Language) (R : List α → Language) (h : ∀ s, A s ↔ ∃ n, B n s)
    (h0 : ∀ s, R [] s ↔ s = []) (h1 : ∀ n l s, R (n :: l) s ↔ cat (B n) (R l) s) (s : Str) : many A s ↔ ∃ l, R l s := by
  constructor
  · rintro ⟨ws, rfl, hw⟩
    induction ws with
    | nil => exact ⟨[], (h0 _).2 rfl⟩
    | cons w ws ih =>
      obtain ⟨l, hl⟩ := ih (fun u hu => hw u (by simp [hu]))
      obtain ⟨n, hn⟩ := (h w).1 (hw w (by simp))
      exact ⟨n :: l, (h1 _ _ _).2 ⟨w, ws.flatten, by simp, hn, hl⟩⟩
  · rintro ⟨l, hl⟩
    induction l generalizing s with
    | nil => rw [(h0 s).1 hl]; exact ⟨[], rfl, by simp⟩
    | cons n l ih =>
      obtain ⟨u, v, rfl, hu, hv⟩ := (h1 _ _ _).1 hl
      obtain ⟨ws, rfl, hws⟩ := ih v hv
      exact ⟨u :: ws, by simp, by simpa using ⟨(h u).2 ⟨n, hu⟩, hws⟩⟩

theorem lang_qdescr (s : Str) : qdescr.Lang s ↔ ∃ n, Rfc4512.qdescr n s := by
  rw [qdescr, Rx.lang_cat]
  simp only [List.map, Rx.lang_lit, lang_descr, cats, Rfc4512.qdescr, Abnf.cat, Rfc4512.exactly]
  constructor
  · rintro ⟨u, _, rfl, hu, n, q, rfl, hn, hq⟩
    exact ⟨n, u, _, rfl, hu, n, q, rfl, ⟨rfl, hn⟩, hq⟩
  · rintro ⟨n, u, _, rfl, hu, _, q, rfl, ⟨rfl, hn⟩, hq⟩
    exact ⟨u, _, rfl, hu, _, q, rfl, hn, hq⟩

theorem lang_moreNames (s : Str) : (Rx.star (.cat [sp, qdescr])).Lang s ↔ ∃ l, Rfc4512.moreNames codeLex l s := by
  rw [Rx.Lang, Rx.lang_cat]
  refine many_list _ (fun n => cat (Rfc4512.SP codeLex) (Rfc4512.qdescr n)) _ ?_ (fun s => Iff.rfl) ?_ s
  · intro s
    simp only [List.map, cats, lang_SP, Abnf.cat, lang_qdescr]
    constructor
    · rintro ⟨u, v, rfl, h1, n, h2⟩; exact ⟨n, u, v, rfl, h1, h2⟩
    · rintro ⟨n, u, v, rfl, h1, h2⟩; exact ⟨u, v, rfl, h1, n, h2⟩
  · intro n l s
    simp only [Rfc4512.moreNames, cats, Abnf.cat]
    constructor
    · rintro ⟨u, _, rfl, h1, v, w, rfl, h2, h3⟩; exact ⟨u ++ v, w, by simp, ⟨u, v, rfl, h1, h2⟩, h3⟩
    · rintro ⟨_, w, rfl, ⟨u, v, rfl, h1, h2⟩, h3⟩; exact ⟨u, _, by simp, h1, v, w, rfl, h2, h3⟩

theorem lang_qdescrs (s : Str) : qdescrs.Lang s ↔ ∃ l, Rfc4512.qdescrs codeLex l s := by
  rw [qdescrs, Rx.Lang, Rx.lang_cat]
  simp only [List.map, Rx.lang_lit, lang_WSP, qdescrlist, Rx.lang_cat, Abnf.alt]
  rw [show cats [qdescr.Lang, (Rx.star (.cat [sp, qdescr])).Lang] = cat qdescr.Lang (Rx.star (.cat [sp, qdescr])).Lang from rfl, cats_assoc2]
  simp only [cats, Abnf.cat]
  constructor
  · rintro (h | ⟨p, _, rfl, hp, a, _, rfl, ha, q, _, rfl, hq, r, _, rfl, hr, b, z, rfl, hb, hz⟩)
    · obtain ⟨n, hn⟩ := (lang_qdescr s).1 h
      exact ⟨[n], Or.inl ⟨rfl, hn⟩⟩
    · obtain ⟨n, hn⟩ := (lang_qdescr q).1 hq
      obtain ⟨l, hl⟩ := (lang_moreNames r).1 hr
      exact ⟨n :: l, Or.inr ⟨p, _, rfl, hp, a, _, rfl, ha, q, _, rfl, hn, r, _, rfl, hl, b, z, rfl, hb, hz⟩⟩
  · rintro ⟨l, hl⟩
    cases l with
    | nil => exact hl.elim
    | cons n l =>
      rcases hl with ⟨_, h⟩ | ⟨p, _, rfl, hp, a, _, rfl, ha, q, _, rfl, hq, r, _, rfl, hr, b, z, rfl, hb, hz⟩
      · exact Or.inl ((lang_qdescr s).2 ⟨n, h⟩)
      · exact Or.inr ⟨p, _, rfl, hp, a, _, rfl, ha, q, _, rfl, (lang_qdescr q).2 ⟨n, hq⟩, r, _, rfl, (lang_moreNames r).2 ⟨l, hr⟩, b, z, rfl, hb, hz⟩

theorem lang_moreOids (s : Str) : (Rx.star (.cat [wsp, .lit ['$'], wsp, oid])).Lang s ↔ ∃ l, Rfc4512.moreOids codeLex l s := by
  rw [Rx.Lang, Rx.lang_cat]
  refine many_list _ (fun n => cats [Rfc4512.WSP codeLex, Abnf.lit ['$'], Rfc4512.WSP codeLex, Rfc4512.exactly n (Rfc4512.oid codeLex)]) _ ?_ (fun s => Iff.rfl) ?_ s
  · intro s
    simp only [List.map, cats, lang_WSP, Abnf.cat, lang_oid, Rx.lang_lit, Rfc4512.exactly]
    constructor
    · rintro ⟨u, _, rfl, h1, v, _, rfl, h2, w, n, rfl, h3, h4⟩; exact ⟨n, u, _, rfl, h1, v, _, rfl, h2, w, n, rfl, h3, rfl, h4⟩
    · rintro ⟨n, u, _, rfl, h1, v, _, rfl, h2, w, _, rfl, h3, rfl, h4⟩; exact ⟨u, _, rfl, h1, v, _, rfl, h2, w, _, rfl, h3, h4⟩
  · intro n l s
    simp only [Rfc4512.moreOids, cats, Abnf.cat]
    constructor
    · rintro ⟨u, _, rfl, h1, v, _, rfl, h2, w, _, rfl, h3, x, y, rfl, h4, h5⟩
      exact ⟨u ++ (v ++ (w ++ x)), y, by simp, ⟨u, _, rfl, h1, v, _, rfl, h2, w, x, rfl, h3, h4⟩, h5⟩
    · rintro ⟨_, y, rfl, ⟨u, _, rfl, h1, v, _, rfl, h2, w, x, rfl, h3, h4⟩, h5⟩
      exact ⟨u, _, by simp, h1, v, _, rfl, h2, w, _, rfl, h3, x, y, rfl, h4, h5⟩

theorem lang_oids (s : Str) : oids.Lang s ↔ ∃ l, Rfc4512.oids codeLex l s := by
  rw [oids, Rx.Lang, Rx.lang_cat]
  simp only [List.map, Rx.lang_lit, lang_WSP, oidlist, Rx.lang_cat, Abnf.alt]
  rw [show cats [oid.Lang, (Rx.star (.cat [wsp, .lit ['$'], wsp, oid])).Lang] = cat oid.Lang (Rx.star (.cat [wsp, .lit ['$'], wsp, oid])).Lang from rfl, cats_assoc2]
  simp only [cats, Abnf.cat, lang_oid]
  constructor
  · rintro (h | ⟨p, _, rfl, hp, a, _, rfl, ha, q, _, rfl, hq, r, _, rfl, hr, b, z, rfl, hb, hz⟩)
    · exact ⟨[s], Or.inl ⟨rfl, rfl, h⟩⟩
    · obtain ⟨l, hl⟩ := (lang_moreOids r).1 hr
      exact ⟨q :: l, Or.inr ⟨p, _, rfl, hp, a, _, rfl, ha, q, _, rfl, ⟨rfl, hq⟩, r, _, rfl, hl, b, z, rfl, hb, hz⟩⟩
  · rintro ⟨l, hl⟩
    cases l with
    | nil => exact hl.elim
    | cons n l =>
      rcases hl with ⟨_, rfl, h⟩ | ⟨p, _, rfl, hp, a, _, rfl, ha, q, _, rfl, ⟨rfl, hq⟩, r, _, rfl, hr, b, z, rfl, hb, hz⟩
      · exact Or.inl h
      · exact Or.inr ⟨p, _, rfl, hp, a, _, rfl, ha, q, _, rfl, hq, r, _, rfl, (lang_moreOids r).2 ⟨l, hr⟩, b, z, rfl, hb, hz⟩

theorem lang_noidlen (s : Str) : noidlen.Lang s ↔ ∃ p, Rfc4512.noidlen codeLex p s := by
  rw [noidlen, Rx.lang_cat]
  simp only [List.map, cats, Rx.lang_opt, Rx.lang_cat, Rx.lang_lit, lang_number, lang_numericoid, Abnf.cat, Abnf.opt]
  constructor
  · rintro ⟨u, v, rfl, hu, rfl | ⟨p, _, rfl, hp, d, q, rfl, hd, hq⟩⟩
    · exact ⟨(u, none), by simp [Rfc4512.noidlen, Rfc4512.exactly, hu]⟩
    · exact ⟨(u, some (Rfc4512.decimal d)), u, _, rfl, ⟨rfl, hu⟩, p, _, rfl, hp, d, q, rfl, ⟨hd, rfl⟩, hq⟩
  · rintro ⟨⟨o, n⟩, h⟩
    cases n with
    | none => exact ⟨o, [], by simp [h.1], h.2, Or.inl rfl⟩
    | some n =>
      obtain ⟨u, _, rfl, ⟨rfl, hu⟩, p, _, rfl, hp, d, q, rfl, ⟨hd, _⟩, hq⟩ := h
      exact ⟨u, _, rfl, hu, Or.inr ⟨p, _, rfl, hp, d, q, rfl, hd, hq⟩⟩

/-! ### Every value ends recognisably -/

theorem alpha_not (c d : Char) (h : alpha c = true ∨ digit c = true ∨ c = '-' ∨ c = '.')
    (hd : alpha d = false ∧ digit d = false ∧ d ≠ '-' ∧ d ≠ '.') : c ≠ d := by
  rintro rfl
  rcases h with h | h | h | h
  · rw [hd.1] at h; cases h
  · rw [hd.2.1] at h; cases h
  · exact hd.2.2.1 h
  · exact hd.2.2.2 h

theorem keystring_chars {n : Str} (h : Rfc4512.keystring n) : n ≠ [] ∧ ∀ c ∈ n, alpha c = true ∨ digit c = true ∨ c = '-' ∨ c = '.' := by
  obtain ⟨u, v, rfl, ⟨c, rfl, hc⟩, hv⟩ := h
  rw [Rx.many_chr] at hv
  refine ⟨by simp, ?_⟩
  intro d hd
  simp at hd
  rcases hd with rfl | hd
  · exact Or.inl hc
  · have := hv d hd
    simp only [Bool.or_eq_true, beq_iff_eq] at this
    rcases this with (h | h) | h
    · exact Or.inl h
    · exact Or.inr (Or.inl h)
    · exact Or.inr (Or.inr (Or.inl h))

theorem oid_chars {n : Str} (h : Rfc4512.oid codeLex n) : n ≠ [] ∧ ∀ c ∈ n, alpha c = true ∨ digit c = true ∨ c = '-' ∨ c = '.' := by
  rcases h with h | h
  · exact keystring_chars h
  · rw [← lang_numericoid] at h
    obtain ⟨h1, h2⟩ := numericoid_chars h
    exact ⟨h1, fun c hc => by rcases h2 c hc with h | h <;> simp [h]⟩

theorem oid_tok {o : Str} (h : Rfc4512.oid codeLex o) : Tok o := by
  obtain ⟨h1, h2⟩ := oid_chars h
  exact Tok.chars h1 (fun c hc => ⟨alpha_not c _ (h2 c hc) (by decide), alpha_not c _ (h2 c hc) (by decide),
    alpha_not c _ (h2 c hc) (by decide), alpha_not c _ (h2 c hc) (by decide)⟩)

theorem dstring_chars {s : Str} (h : Rfc4512.dstring s) : ∀ c ∈ s, c ≠ '\'' := by
  obtain ⟨l, _, rfl, hl⟩ := h
  intro c hc
  obtain ⟨w, hw, hcw⟩ := List.mem_flatten.1 hc
  rcases hl w hw with h | ⟨p, q, rfl, h, ⟨d, rfl, hd⟩⟩ | ⟨d, rfl, hd⟩
  · rw [show w = str "\\27" from h] at hcw
    rintro rfl; revert hcw; decide
  · rw [show p = str "\\5" from h] at hcw
    rintro rfl
    simp at hcw
    subst hcw
    simp at hd
  · simp at hcw hd
    subst hcw
    exact hd.1

theorem qdstring_tok {s : Str} (h : Rfc4512.qdstring s) : Tok s := by
  obtain ⟨p, _, rfl, hp, m, q, rfl, hm, hq⟩ := h
  rw [show p = ['\''] from hp, show q = ['\''] from hq]
  exact Or.inr (Or.inr ⟨m, rfl, fun h => dstring_chars hm _ h rfl⟩)

theorem qdescr_eq {n s : Str} : Rfc4512.qdescr n s ↔ Rfc4512.keystring n ∧ s = '\'' :: (n ++ ['\'']) := by
  constructor
  · rintro ⟨p, _, rfl, hp, _, q, rfl, ⟨rfl, hm⟩, hq⟩
    rw [show p = ['\''] from hp, show q = ['\''] from hq]
    exact ⟨hm, rfl⟩
  · rintro ⟨h, rfl⟩
    exact ⟨['\''], _, rfl, rfl, n, ['\''], rfl, ⟨rfl, h⟩, rfl⟩

theorem moreNames_no {l : List Str} {s : Str} (h : Rfc4512.moreNames codeLex l s) : ')' ∉ s := by
  induction l generalizing s with
  | nil => rw [show s = [] from h]; simp
  | cons n l ih =>
    obtain ⟨a, _, rfl, ha, q, r, rfl, hq, hr⟩ := h
    obtain ⟨hn, rfl⟩ := qdescr_eq.1 hq
    have h1 : ')' ∉ a := fun hc => absurd (((SP_iff a).1 ha).2 _ hc) (by decide)
    have h2 : ')' ∉ n := fun hc => alpha_not _ _ ((keystring_chars hn).2 _ hc) (by decide) rfl
    have h3 := ih hr
    simp [h1, h2, h3]

theorem qdescrs_tok {l : List Str} {s : Str} (h : Rfc4512.qdescrs codeLex l s) : Tok s := by
  cases l with
  | nil => exact h.elim
  | cons n l =>
    rcases h with ⟨_, h⟩ | ⟨p, _, rfl, hp, a, _, rfl, ha, q, _, rfl, hq, r, _, rfl, hr, b, z, rfl, hb, hz⟩
    · obtain ⟨hn, rfl⟩ := qdescr_eq.1 h
      exact Or.inr (Or.inr ⟨n, rfl, fun hc => alpha_not _ _ ((keystring_chars hn).2 _ hc) (by decide) rfl⟩)
    · rw [show p = ['('] from hp, show z = [')'] from hz]
      obtain ⟨hn, rfl⟩ := qdescr_eq.1 hq
      rw [WSP_iff] at ha hb
      have h1 : ')' ∉ a := fun hc => absurd (ha _ hc) (by decide)
      have h2 : ')' ∉ b := fun hc => absurd (hb _ hc) (by decide)
      have h3 : ')' ∉ n := fun hc => alpha_not _ _ ((keystring_chars hn).2 _ hc) (by decide) rfl
      refine Or.inr (Or.inl ⟨a ++ (('\'' :: (n ++ ['\''])) ++ (r ++ b)), by simp, ?_⟩)
      simp [h1, h2, h3, moreNames_no hr]

theorem moreOids_no {l : List Str} {s : Str} (h : Rfc4512.moreOids codeLex l s) : ')' ∉ s := by
  induction l generalizing s with
  | nil => rw [show s = [] from h]; simp
  | cons n l ih =>
    obtain ⟨a, _, rfl, ha, p, _, rfl, hp, b, _, rfl, hb, _, r, rfl, ⟨rfl, hn⟩, hr⟩ := h
    rw [WSP_iff] at ha hb
    rw [show p = ['$'] from hp]
    have h1 : ')' ∉ a := fun hc => absurd (ha _ hc) (by decide)
    have h2 : ')' ∉ b := fun hc => absurd (hb _ hc) (by decide)
    rename_i n
    have h3 : ')' ∉ n := fun hc => alpha_not _ _ ((oid_chars hn).2 _ hc) (by decide) rfl
    simp [h1, h2, h3, ih hr]

theorem oids_tok {l : List Str} {s : Str} (h : Rfc4512.oids codeLex l s) : Tok s := by
  cases l with
  | nil => exact h.elim
  | cons n l =>
    rcases h with ⟨_, rfl, h⟩ | ⟨p, _, rfl, hp, a, _, rfl, ha, _, _, rfl, ⟨rfl, hn⟩, r, _, rfl, hr, b, z, rfl, hb, hz⟩
    · exact oid_tok h
    · rename_i n
      rw [show p = ['('] from hp, show z = [')'] from hz]
      rw [WSP_iff] at ha hb
      have h1 : ')' ∉ a := fun hc => absurd (ha _ hc) (by decide)
      have h2 : ')' ∉ b := fun hc => absurd (hb _ hc) (by decide)
      have h3 : ')' ∉ n := fun hc => alpha_not _ _ ((oid_chars hn).2 _ hc) (by decide) rfl
      refine Or.inr (Or.inl ⟨a ++ (n ++ (r ++ b)), by simp, ?_⟩)
      simp [h1, h2, h3, moreOids_no hr]

theorem number_chars {d : Str} (h : codeLex.number d) : d ≠ [] ∧ ∀ c ∈ d, digit c = true := by
  have : many1 (chr Rfc4512.isDigit) d := h
  rw [Rx.many1_chr] at this
  exact this

theorem noidlen_tok {p : Str × Option Nat} {s : Str} (h : Rfc4512.noidlen codeLex p s) : Tok s := by
  obtain ⟨o, n⟩ := p
  cases n with
  | none =>
    obtain ⟨rfl, h⟩ := h
    exact oid_tok (Or.inr h)
  | some n =>
    obtain ⟨_, _, rfl, ⟨rfl, hu⟩, p, _, rfl, hp, d, q, rfl, ⟨hd, _⟩, hq⟩ := h
    rename_i o
    rw [show p = ['{'] from hp, show q = ['}'] from hq]
    obtain ⟨h1, h2⟩ := oid_chars (Or.inr hu)
    obtain ⟨h3, h4⟩ := number_chars hd
    apply Tok.chars (by simp)
    intro c hc
    simp at hc
    have key : ∀ e : Char, (alpha e = false ∧ digit e = false ∧ e ≠ '-' ∧ e ≠ '.') → e ≠ '{' → e ≠ '}' → c ≠ e := by
      intro e he e1 e2
      rcases hc with hc | rfl | hc | rfl
      · exact alpha_not c e (h2 c hc) he
      · exact fun h => e1 h.symm
      · exact alpha_not c e (Or.inr (Or.inl (h4 c hc))) he
      · exact fun h => e2 h.symm
    exact ⟨key _ (by decide) (by decide) (by decide), key _ (by decide) (by decide) (by decide), key _ (by decide) (by decide) (by decide),
      key _ (by decide) (by decide) (by decide)⟩

theorem goodKey_of (k : Str) (h : (k != [] && k.all keyc && k.take 2 != str "X-") = true) : GoodKey k := by
  simp only [Bool.and_eq_true, bne_iff_ne, List.all_eq_true] at h
  exact ⟨h.1.1, h.1.2, h.2⟩

theorem lang_words (ws : List Str) (h : ∀ w ∈ ws, w ≠ [] ∧ ∀ c ∈ w, alpha c = true ∨ digit c = true ∨ c = '-' ∨ c = '.') :
    ∀ v, (Rx.any (ws.map .lit)).Lang v → Tok v := by
  intro v hv
  rw [Rx.lang_any_lit] at hv
  obtain ⟨h1, h2⟩ := h v hv
  exact Tok.chars h1 (fun c hc => ⟨alpha_not c _ (h2 c hc) (by decide), alpha_not c _ (h2 c hc) (by decide),
    alpha_not c _ (h2 c hc) (by decide), alpha_not c _ (h2 c hc) (by decide)⟩)

theorem good_at : GoodItems atItems := by
  have t1 : ∀ v, qdescrs.Lang v → Tok v := fun v h => by obtain ⟨l, h⟩ := (lang_qdescrs v).1 h; exact qdescrs_tok h
  have t2 : ∀ v, qdstring.Lang v → Tok v := fun v h => by rw [lang_qdstring] at h; exact qdstring_tok h
  have t3 : ∀ v, oid.Lang v → Tok v := fun v h => by rw [lang_oid] at h; exact oid_tok h
  have t4 : ∀ v, noidlen.Lang v → Tok v := fun v h => by obtain ⟨l, h⟩ := (lang_noidlen v).1 h; exact noidlen_tok h
  have t5 := lang_words [str "userApplications", str "directoryOperation", str "distributedOperation", str "dSAOperation"] (by decide)
  simp only [atItems, GoodItems, Item.keys, Item.GoodVal, List.mem_singleton, forall_eq]
  refine ⟨goodKey_of _ (by decide), t1, by decide, goodKey_of _ (by decide), t2, by decide, goodKey_of _ (by decide), trivial, by decide,
    goodKey_of _ (by decide), t3, by decide, goodKey_of _ (by decide), t3, by decide, goodKey_of _ (by decide), t3, by decide,
    goodKey_of _ (by decide), t3, by decide, goodKey_of _ (by decide), t4, by decide, goodKey_of _ (by decide), trivial, by decide,
    goodKey_of _ (by decide), trivial, by decide, goodKey_of _ (by decide), trivial, by decide, goodKey_of _ (by decide), t5, by decide, trivial⟩

theorem good_oc : GoodItems ocItems := by
  have t1 : ∀ v, qdescrs.Lang v → Tok v := fun v h => by obtain ⟨l, h⟩ := (lang_qdescrs v).1 h; exact qdescrs_tok h
  have t2 : ∀ v, qdstring.Lang v → Tok v := fun v h => by rw [lang_qdstring] at h; exact qdstring_tok h
  have t3 : ∀ v, oids.Lang v → Tok v := fun v h => by obtain ⟨l, h⟩ := (lang_oids v).1 h; exact oids_tok h
  have hk : ∀ k ∈ [str "ABSTRACT", str "STRUCTURAL", str "AUXILIARY"], GoodKey k := by
    intro k hk
    simp only [List.mem_cons, List.not_mem_nil, or_false] at hk
    rcases hk with rfl | rfl | rfl <;> exact goodKey_of _ (by decide)
  simp only [ocItems, GoodItems]
  refine ⟨?_, t1, by decide, ?_, t2, by decide, ?_, trivial, by decide, ?_, t3, by decide, hk, trivial, by decide, ?_, t3, by decide,
    ?_, t3, by decide, trivial⟩ <;> (simp only [Item.keys, List.mem_singleton, forall_eq]; exact goodKey_of _ (by decide))

end Laurelin.SchemaSpec
