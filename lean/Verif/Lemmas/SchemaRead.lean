import Verif.Lemmas.SchemaLang
/-! Collapsing whitespace, and reading the values of a description. -/
namespace Laurelin.SchemaSpec
open Laurelin Laurelin.Syntax Spec Spec.Abnf

/-! ### Collapsing -/

abbrev isWs (c : Char) : Bool := inClass pySpace c

/-- the grammar of RFC 4512, separated by any whitespace -/
def rfcLex : Rfc4512.Lex := ⟨isWs, Rfc4512.strictNumber⟩

def endSt : Bool → Str → Bool
  | b, [] => b
  | _, c :: t => endSt (isWs c) t

theorem endSt_append (b : Bool) (u v : Str) : endSt b (u ++ v) = endSt (endSt b u) v := by
  induction u generalizing b with
  | nil => rfl
  | cons c u ih => simp only [List.cons_append, endSt, ih]

theorem squeeze_append (b : Bool) (u v : Str) : squeeze b (u ++ v) = squeeze b u ++ squeeze (endSt b u) v := by
  induction u generalizing b with
  | nil => rfl
  | cons c u ih =>
    simp only [List.cons_append, squeeze, endSt]
    by_cases h : inClass pySpace c = true
    · simp only [isWs, h, if_true, ih]
      cases b <;> simp
    · simp only [h, if_false, ih, isWs, List.cons_append, Bool.false_eq_true]

/-- From a place where the last character was no whitespace. -/
def Tf (A B : Language) : Prop := ∀ u, A u → B (squeeze false u) ∧ endSt false u = false
/-- From any place. -/
def Tn (A B : Language) : Prop := ∀ u b, A u → B (squeeze b u) ∧ endSt b u = false

theorem Tn.f {A B : Language} (h : Tn A B) : Tf A B := fun u hu => h u false hu

theorem Tf.cat {A B C D : Language} (h : Tf A B) (h' : Tf C D) : Tf (cat A C) (cat B D) := by
  rintro _ ⟨u, v, rfl, hu, hv⟩
  obtain ⟨h1, h2⟩ := h u hu
  obtain ⟨h3, h4⟩ := h' v hv
  rw [squeeze_append, endSt_append, h2]
  exact ⟨⟨_, _, rfl, h1, h3⟩, h4⟩

theorem Tn.cat {A B C D : Language} (h : Tn A B) (h' : Tf C D) : Tn (cat A C) (cat B D) := by
  rintro _ b ⟨u, v, rfl, hu, hv⟩
  obtain ⟨h1, h2⟩ := h u b hu
  obtain ⟨h3, h4⟩ := h' v hv
  rw [squeeze_append, endSt_append, h2]
  exact ⟨⟨_, _, rfl, h1, h3⟩, h4⟩

theorem Tf.alt {A B C D : Language} (h : Tf A B) (h' : Tf C D) : Tf (alt A C) (alt B D) := by
  rintro u (hu | hu)
  · exact ⟨Or.inl (h u hu).1, (h u hu).2⟩
  · exact ⟨Or.inr (h' u hu).1, (h' u hu).2⟩

theorem Tn.alt {A B C D : Language} (h : Tn A B) (h' : Tn C D) : Tn (alt A C) (alt B D) := by
  rintro u b (hu | hu)
  · exact ⟨Or.inl (h u b hu).1, (h u b hu).2⟩
  · exact ⟨Or.inr (h' u b hu).1, (h' u b hu).2⟩

theorem Tf.opt {A B : Language} (h : Tf A B) : Tf (opt A) (opt B) := by
  rintro u (rfl | hu)
  · exact ⟨Or.inl rfl, rfl⟩
  · exact ⟨Or.inr (h u hu).1, (h u hu).2⟩

theorem Tf.nil : Tf (lit []) (lit []) := by
  rintro u hu
  rw [show u = [] from hu]
  exact ⟨rfl, rfl⟩

theorem Tf.many {A B : Language} (h : Tf A B) : Tf (many A) (many B) := by
  rintro _ ⟨l, rfl, hl⟩
  induction l with
  | nil => exact ⟨⟨[], rfl, by simp⟩, rfl⟩
  | cons u l ih =>
    obtain ⟨h1, h2⟩ := h u (hl u (by simp))
    obtain ⟨⟨l', h3, h4⟩, h5⟩ := ih (fun v hv => hl v (by simp [hv]))
    rw [List.flatten_cons, squeeze_append, endSt_append, h2]
    refine ⟨⟨squeeze false u :: l', by simp [h3], ?_⟩, h5⟩
    intro v hv
    simp at hv
    rcases hv with rfl | hv
    · exact h1
    · exact h4 v hv

theorem squeeze_word (b : Bool) (u : Str) (h : ∀ c ∈ u, isWs c = false) : squeeze b u = u := by
  induction u generalizing b with
  | nil => rfl
  | cons c u ih =>
    have : inClass pySpace c = false := h c (by simp)
    simp only [squeeze, this, Bool.false_eq_true, if_false]
    rw [ih false (fun c hc => h c (by simp [hc]))]

theorem endSt_word (b : Bool) (u : Str) (hu : u ≠ []) (h : ∀ c ∈ u, isWs c = false) : endSt b u = false := by
  induction u generalizing b with
  | nil => exact absurd rfl hu
  | cons c u ih =>
    rw [endSt, h c (by simp)]
    cases u with
    | nil => rfl
    | cons d u => exact ih false (by simp) (fun c hc => h c (by simp [hc]))

/-- words without whitespace are unchanged -/
theorem Tn.word {A B : Language} (h : ∀ u, A u → B u ∧ u ≠ [] ∧ ∀ c ∈ u, isWs c = false) : Tn A B := by
  intro u b hu
  obtain ⟨h1, h2, h3⟩ := h u hu
  rw [squeeze_word b u h3]
  exact ⟨h1, endSt_word b u h2 h3⟩

theorem squeeze_ws (u : Str) (h : ∀ c ∈ u, isWs c = true) : squeeze true u = [] := by
  induction u with
  | nil => rfl
  | cons c u ih =>
    have : inClass pySpace c = true := h c (by simp)
    simp only [squeeze, this, if_true]
    exact ih (fun c hc => h c (by simp [hc]))

/-- WSP before something -/
theorem Tf.wsp {A B : Language} (h : Tn A B) : Tf (Abnf.cat (Rfc4512.WSP rfcLex) A) (Abnf.cat (Rfc4512.WSP codeLex) B) := by
  rintro _ ⟨u, v, rfl, hu, hv⟩
  obtain ⟨h1, h2⟩ := h v (endSt false u) hv
  rw [squeeze_append, endSt_append]
  refine ⟨⟨_, _, rfl, ?_, h1⟩, h2⟩
  rw [WSP_iff]
  rw [Rfc4512.WSP, Rx.many_chr] at hu
  cases u with
  | nil => simp [squeeze]
  | cons c u =>
    have : inClass pySpace c = true := hu c (by simp)
    simp only [squeeze, this, if_true, Bool.false_eq_true, if_false]
    rw [squeeze_ws u (fun c hc => hu c (by simp [hc]))]
    simp

/-- SP before something -/
theorem Tf.sp {A B : Language} (h : Tn A B) : Tf (Abnf.cat (Rfc4512.SP rfcLex) A) (Abnf.cat (Rfc4512.SP codeLex) B) := by
  rintro _ ⟨u, v, rfl, hu, hv⟩
  obtain ⟨h1, h2⟩ := h v (endSt false u) hv
  rw [squeeze_append, endSt_append]
  refine ⟨⟨_, _, rfl, ?_, h1⟩, h2⟩
  rw [SP_iff]
  rw [Rfc4512.SP, Rx.many1_chr] at hu
  cases u with
  | nil => exact absurd rfl hu.1
  | cons c u =>
    have : inClass pySpace c = true := hu.2 c (by simp)
    simp only [squeeze, this, if_true, Bool.false_eq_true, if_false]
    rw [squeeze_ws u (fun c hc => hu.2 c (by simp [hc]))]
    simp [Sp]

theorem range_nat (a b : Char) (c : Char) (h : range a b c = true) : a.toNat ≤ c.toNat ∧ c.toNat ≤ b.toNat := by
  simp only [range, Bool.and_eq_true, decide_eq_true_eq] at h
  exact ⟨UInt32.le_iff_toNat_le.1 h.1, UInt32.le_iff_toNat_le.1 h.2⟩

theorem ascii_nws (c : Char) (h1 : 33 ≤ c.toNat) (h2 : c.toNat ≤ 126) : isWs c = false := by
  simp only [isWs, inClass, pySpace, List.any_cons, List.any_nil, Bool.or_false]
  simp; omega

theorem alpha_nws {c : Char} (h : alpha c = true ∨ digit c = true ∨ c = '-' ∨ c = '.') : isWs c = false := by
  rcases h with h | h | rfl | rfl
  · simp only [alpha, Bool.or_eq_true] at h
    rcases h with h | h <;> (have := range_nat _ _ _ h; simp only [Char.reduceToNat] at this; exact ascii_nws c (by omega) (by omega))
  · have := range_nat _ _ _ h; simp only [Char.reduceToNat] at this; exact ascii_nws c (by omega) (by omega)
  · decide
  · decide

theorem strict_loose {s : Str} (h : Rfc4512.strictNumber s) : Rfc4512.looseNumber s := by
  rcases h with h | ⟨u, v, rfl, ⟨c, rfl, hc⟩, hv⟩
  · exact ⟨[s], by simp, by simp, by simpa using h⟩
  · obtain ⟨l, _, rfl, hl⟩ := hv
    refine ⟨[c] :: l, by simp, by simp, ?_⟩
    intro w hw
    simp at hw
    rcases hw with rfl | hw
    · refine ⟨c, rfl, ?_⟩
      simp only [Bool.and_eq_true, decide_eq_true_eq] at hc
      simp only [Rfc4512.isDigit, Bool.and_eq_true, decide_eq_true_eq]
      exact ⟨Char.le_trans (by decide) hc.1, hc.2⟩
    · exact hl w hw

theorem numericoid_strict {s : Str} (h : Rfc4512.numericoid rfcLex s) : Rfc4512.numericoid codeLex s := by
  obtain ⟨u, v, rfl, hu, l, hn, rfl, hl⟩ := h
  refine ⟨u, _, rfl, strict_loose hu, l, hn, rfl, ?_⟩
  intro w hw
  obtain ⟨p, q, rfl, hp, hq⟩ := hl w hw
  exact ⟨p, q, rfl, hp, strict_loose hq⟩

theorem oid_strict {s : Str} (h : Rfc4512.oid rfcLex s) : Rfc4512.oid codeLex s := by
  rcases h with h | h
  · exact Or.inl h
  · exact Or.inr (numericoid_strict h)

theorem Tn.exactly {w : Str} {A B : Language} (h : A w → B w ∧ w ≠ [] ∧ ∀ c ∈ w, isWs c = false) :
    Tn (Rfc4512.exactly w A) (Rfc4512.exactly w B) := by
  apply Tn.word
  rintro u ⟨rfl, hu⟩
  obtain ⟨h1, h2, h3⟩ := h hu
  exact ⟨⟨rfl, h1⟩, h2, h3⟩

theorem Tn.oid (o : Str) : Tn (Rfc4512.exactly o (Rfc4512.oid rfcLex)) (Rfc4512.exactly o (Rfc4512.oid codeLex)) :=
  Tn.exactly fun h => ⟨oid_strict h, (oid_chars (oid_strict h)).1, fun c hc => alpha_nws ((oid_chars (oid_strict h)).2 c hc)⟩

theorem Tn.noid (o : Str) : Tn (Rfc4512.exactly o (Rfc4512.numericoid rfcLex)) (Rfc4512.exactly o (Rfc4512.numericoid codeLex)) :=
  Tn.exactly fun h => ⟨numericoid_strict h, (oid_chars (Or.inr (numericoid_strict h))).1,
    fun c hc => alpha_nws ((oid_chars (Or.inr (numericoid_strict h))).2 c hc)⟩

theorem Tn.lit (k : Str) (h : (k != [] && k.all (fun c => !isWs c)) = true) : Tn (lit k) (lit k) := by
  simp only [Bool.and_eq_true, bne_iff_ne, List.all_eq_true, Bool.not_eq_true'] at h
  apply Tn.word
  intro u hu
  rw [show u = k from hu]
  exact ⟨rfl, h⟩

theorem Tn.qdescr (n : Str) : Tn (Rfc4512.qdescr n) (Rfc4512.qdescr n) := by
  apply Tn.word
  intro u hu
  refine ⟨hu, ?_⟩
  obtain ⟨hn, rfl⟩ := qdescr_eq.1 hu
  refine ⟨by simp, ?_⟩
  intro c hc
  simp at hc
  rcases hc with rfl | hc | rfl
  · decide
  · exact alpha_nws ((keystring_chars hn).2 c hc)
  · decide

/-- inside a quoted string every whitespace character is an ordinary one -/
theorem dstring_squeeze (l : List Str) (b : Bool)
    (hl : ∀ u ∈ l, Abnf.alt (Abnf.lit (str "\\27")) (Abnf.alt (Abnf.cat (Abnf.lit (str "\\5")) (chr (fun c => c == 'C' || c == 'c')))
      (chr (fun c => !(c == '\'' || c == '\\')))) u) :
    ∃ l', squeeze b l.flatten = l'.flatten ∧ (∀ u ∈ l', Abnf.alt (Abnf.lit (str "\\27")) (Abnf.alt (Abnf.cat (Abnf.lit (str "\\5")) (chr (fun c => c == 'C' || c == 'c')))
      (chr (fun c => !(c == '\'' || c == '\\')))) u) ∧ (b = false → l ≠ [] → l' ≠ []) := by
  induction l generalizing b with
  | nil => exact ⟨[], rfl, by simp, fun _ h => absurd rfl h⟩
  | cons w l ih =>
    rw [List.flatten_cons, squeeze_append]
    obtain ⟨l', h1, h2, _⟩ := ih (endSt b w) (fun u hu => hl u (by simp [hu]))
    have plain : (∀ c ∈ w, isWs c = false) → ∃ l', squeeze b w ++ squeeze (endSt b w) l.flatten = l'.flatten ∧
        (∀ u ∈ l', Abnf.alt (Abnf.lit (str "\\27")) (Abnf.alt (Abnf.cat (Abnf.lit (str "\\5")) (chr (fun c => c == 'C' || c == 'c')))
          (chr (fun c => !(c == '\'' || c == '\\')))) u) ∧ (b = false → w :: l ≠ [] → l' ≠ []) := by
      intro hw
      rw [squeeze_word b w hw, h1]
      refine ⟨w :: l', by simp, ?_, by simp⟩
      intro u hu
      simp at hu
      rcases hu with rfl | hu
      · exact hl u (by simp)
      · exact h2 u hu
    rcases hl w (by simp) with h | ⟨p, q, rfl, h, ⟨d, rfl, hd⟩⟩ | ⟨d, rfl, hd⟩
    · exact plain (by rw [show w = str "\\27" from h]; decide)
    · apply plain
      rw [show p = str "\\5" from h]
      simp at hd
      rcases hd with rfl | rfl <;> decide
    · by_cases hws : isWs d = true
      · have : inClass pySpace d = true := hws
        cases b with
        | true => exact ⟨l', by simp [squeeze, this, h1], h2, by simp⟩
        | false =>
          refine ⟨[' '] :: l', by simp [squeeze, this, h1], ?_, by simp⟩
          intro u hu
          simp at hu
          rcases hu with rfl | hu
          · exact Or.inr (Or.inr ⟨' ', rfl, by decide⟩)
          · exact h2 u hu
      · exact plain (by simpa using hws)

theorem Tn.qdstring : Tn Rfc4512.qdstring Rfc4512.qdstring := by
  rintro _ b ⟨p, _, rfl, hp, m, q, rfl, ⟨l, hn, rfl, hl⟩, hq⟩
  rw [show p = ['\''] from hp, show q = ['\''] from hq]
  obtain ⟨l', h1, h2, h3⟩ := dstring_squeeze l false hl
  have e : inClass pySpace '\'' = false := by decide
  constructor
  · rw [squeeze_append, show squeeze b ['\''] = ['\''] by simp [squeeze, e], show endSt b ['\''] = false by simp [endSt, isWs, e], squeeze_append, h1,
      show ∀ b, squeeze b ['\''] = ['\''] by intro b; simp [squeeze, e]]
    exact ⟨['\''], _, rfl, rfl, l'.flatten, ['\''], rfl, ⟨l', h3 rfl hn, rfl, h2⟩, rfl⟩
  · rw [endSt_append, endSt_append]
    simp [endSt, isWs, e]

theorem Tf.moreNames (l : List Str) : Tf (Rfc4512.moreNames rfcLex l) (Rfc4512.moreNames codeLex l) := by
  induction l with
  | nil => exact Tf.nil
  | cons n l ih => exact Tf.sp (Tn.cat (Tn.qdescr n) ih)

theorem closing : Tf (Abnf.cat (Rfc4512.WSP rfcLex) (Abnf.lit [')'])) (Abnf.cat (Rfc4512.WSP codeLex) (Abnf.lit [')'])) :=
  Tf.wsp (Tn.lit _ (by decide))

theorem Tn.qdescrs (l : List Str) : Tn (Rfc4512.qdescrs rfcLex l) (Rfc4512.qdescrs codeLex l) := by
  cases l with
  | nil => intro u b h; exact h.elim
  | cons n l =>
    refine Tn.alt ?_ (Tn.cat (Tn.lit _ (by decide)) (Tf.wsp (Tn.cat (Tn.qdescr n) (Tf.cat (Tf.moreNames l) closing))))
    intro u b h
    exact ⟨⟨h.1, (Tn.qdescr n u b h.2).1⟩, (Tn.qdescr n u b h.2).2⟩

theorem Tf.moreOids (l : List Str) : Tf (Rfc4512.moreOids rfcLex l) (Rfc4512.moreOids codeLex l) := by
  induction l with
  | nil => exact Tf.nil
  | cons n l ih => exact Tf.wsp (Tn.cat (Tn.lit _ (by decide)) (Tf.wsp (Tn.cat (Tn.oid n) ih)))

theorem Tn.oids (l : List Str) : Tn (Rfc4512.oids rfcLex l) (Rfc4512.oids codeLex l) := by
  cases l with
  | nil => intro u b h; exact h.elim
  | cons n l =>
    refine Tn.alt ?_ (Tn.cat (Tn.lit _ (by decide)) (Tf.wsp (Tn.cat (Tn.oid n) (Tf.cat (Tf.moreOids l) closing))))
    intro u b h
    exact ⟨⟨h.1, (Tn.oid n u b h.2).1⟩, (Tn.oid n u b h.2).2⟩

theorem Tn.noidlen (p : Str × Option Nat) : Tn (Rfc4512.noidlen rfcLex p) (Rfc4512.noidlen codeLex p) := by
  obtain ⟨o, n⟩ := p
  cases n with
  | none => exact Tn.noid o
  | some n =>
    refine Tn.cat (Tn.noid o) (Tn.f (Tn.cat (Tn.lit _ (by decide)) (Tn.f (Tn.cat ?_ (Tn.f (Tn.lit _ (by decide)))))))
    apply Tn.word
    rintro u ⟨h1, h2⟩
    have h3 : codeLex.number u := strict_loose h1
    exact ⟨⟨h3, h2⟩, (number_chars h3).1, fun c hc => alpha_nws (Or.inr (Or.inl ((number_chars h3).2 c hc)))⟩

theorem Tn.qdstrings : Tn (Rfc4512.qdstrings rfcLex) (Rfc4512.qdstrings codeLex) :=
  Tn.alt Tn.qdstring (Tn.cat (Tn.lit _ (by decide)) (Tf.wsp (Tn.cat Tn.qdstring (Tf.cat (Tf.many (Tf.sp Tn.qdstring)) closing))))

theorem Tf.extension : Tf (Rfc4512.extension rfcLex) (Rfc4512.extension codeLex) := by
  refine Tf.opt (Tf.sp (Tn.cat (Tn.lit _ (by decide)) (Tn.f (Tn.cat ?_ (Tf.sp Tn.qdstrings)))))
  apply Tn.word
  intro u hu
  refine ⟨hu, ?_⟩
  rw [Rx.many1_chr] at hu
  refine ⟨hu.1, fun c hc => ?_⟩
  have := hu.2 c hc
  simp only [Bool.or_eq_true, beq_iff_eq] at this
  rcases this with (h | rfl) | rfl
  · exact alpha_nws (Or.inl h)
  · decide
  · decide

theorem Tf.part {α : Type} (key : Str) (hk : (key != [] && key.all (fun c => !isWs c)) = true) (A B : α → Language) (h : ∀ a, Tn (A a) (B a)) (o : Option α) :
    Tf (Rfc4512.part rfcLex key A o) (Rfc4512.part codeLex key B o) := by
  cases o with
  | none => exact Tf.nil
  | some a => exact Tf.sp (Tn.cat (Tn.lit _ hk) (Tf.sp (h a)))

theorem Tf.flag (key : Str) (hk : (key != [] && key.all (fun c => !isWs c)) = true) (b : Bool) :
    Tf (Rfc4512.flag rfcLex key b) (Rfc4512.flag codeLex key b) := by
  cases b with
  | false => exact Tf.nil
  | true => exact Tf.sp (Tn.lit _ hk)

theorem Tf.choice (keys : List Str) (hk : ∀ key ∈ keys, (key != [] && key.all (fun c => !isWs c)) = true) (o : Option Str) :
    Tf (Rfc4512.choice rfcLex keys o) (Rfc4512.choice codeLex keys o) := by
  cases o with
  | none => exact Tf.nil
  | some k =>
    refine Tf.sp (Tn.exactly fun h => ?_)
    have := hk k h
    simp only [Bool.and_eq_true, bne_iff_ne, List.all_eq_true, Bool.not_eq_true'] at this
    exact ⟨h, this⟩

theorem Tn.words (keys : List Str) (hk : ∀ key ∈ keys, (key != [] && key.all (fun c => !isWs c)) = true) (k : Str) :
    Tn (Rfc4512.exactly k (oneOf keys)) (Rfc4512.exactly k (oneOf keys)) := by
  refine Tn.exactly fun h => ?_
  have := hk k h
  simp only [Bool.and_eq_true, bne_iff_ne, List.all_eq_true, Bool.not_eq_true'] at this
  exact ⟨h, this⟩

theorem Tn.attributeType (d : Rfc4512.AttributeType) : Tn (Rfc4512.attributeType rfcLex d) (Rfc4512.attributeType codeLex d) :=
  Tn.cat (Tn.lit _ (by decide)) <| Tf.wsp <| Tn.cat (Tn.noid _) <|
  Tf.cat (Tf.part _ (by decide) _ _ Tn.qdescrs _) <| Tf.cat (Tf.part _ (by decide) _ _ (fun _ => Tn.qdstring) _) <|
  Tf.cat (Tf.flag _ (by decide) _) <| Tf.cat (Tf.part _ (by decide) _ _ Tn.oid _) <| Tf.cat (Tf.part _ (by decide) _ _ Tn.oid _) <|
  Tf.cat (Tf.part _ (by decide) _ _ Tn.oid _) <| Tf.cat (Tf.part _ (by decide) _ _ Tn.oid _) <|
  Tf.cat (Tf.part _ (by decide) _ _ Tn.noidlen _) <|
  Tf.cat (Tf.flag _ (by decide) _) <| Tf.cat (Tf.flag _ (by decide) _) <| Tf.cat (Tf.flag _ (by decide) _) <|
  Tf.cat (Tf.part _ (by decide) _ _ (Tn.words _ (by decide)) _) <| Tf.cat Tf.extension closing

theorem Tn.objectClass (d : Rfc4512.ObjectClass) : Tn (Rfc4512.objectClass rfcLex d) (Rfc4512.objectClass codeLex d) :=
  Tn.cat (Tn.lit _ (by decide)) <| Tf.wsp <| Tn.cat (Tn.noid _) <|
  Tf.cat (Tf.part _ (by decide) _ _ Tn.qdescrs _) <| Tf.cat (Tf.part _ (by decide) _ _ (fun _ => Tn.qdstring) _) <|
  Tf.cat (Tf.flag _ (by decide) _) <| Tf.cat (Tf.part _ (by decide) _ _ Tn.oids _) <| Tf.cat (Tf.choice _ (by decide) _) <|
  Tf.cat (Tf.part _ (by decide) _ _ Tn.oids _) <| Tf.cat (Tf.part _ (by decide) _ _ Tn.oids _) <| Tf.cat Tf.extension closing

/-! ### No two adjacent spaces -/

/-- no two adjacent spaces -/
def ND (s : Str) : Prop := ∀ u v, s ≠ u ++ ' ' :: ' ' :: v

theorem ND.sub {s x y z : Str} (h : ND s) (he : s = x ++ (y ++ z)) : ND y := by
  rintro u v rfl
  exact h (x ++ u) (v ++ z) (by rw [he]; simp)

theorem nd_squeeze (b : Bool) (s : Str) : ND (squeeze b s) ∧ (b = true → ∀ t, squeeze b s ≠ ' ' :: t) := by
  induction s generalizing b with
  | nil =>
    refine ⟨?_, by simp [squeeze]⟩
    rintro u v h
    simp [squeeze] at h
  | cons c t ih =>
    by_cases hc : inClass pySpace c = true
    · cases b with
      | true =>
        simp only [squeeze, hc, if_true]
        exact ⟨(ih true).1, fun _ => (ih true).2 rfl⟩
      | false =>
        simp only [squeeze, hc, if_true, Bool.false_eq_true, if_false]
        refine ⟨?_, by simp⟩
        rintro u v h
        cases u with
        | nil => simp at h; exact (ih true).2 rfl v h
        | cons d u => simp at h; exact (ih true).1 u v h.2
    · simp only [squeeze, hc, if_false, Bool.false_eq_true]
      have hne : c ≠ ' ' := by rintro rfl; exact hc (by decide)
      refine ⟨?_, fun _ t h => hne (by simp at h; exact h.1)⟩
      rintro u v h
      cases u with
      | nil => simp at h; exact hne h.1
      | cons d u => simp at h; exact (ih false).1 u v h.2

theorem pyStrip_sub (p : Char → Bool) (s : Str) : ∃ a b, s = a ++ (pyStrip p s ++ b) ∧ (∀ c ∈ a, p c = true) ∧ (∀ c ∈ b, p c = true) := by
  have e1 : s = s.takeWhile p ++ s.dropWhile p := (List.takeWhile_append_dropWhile).symm
  have e2 : (s.dropWhile p).reverse = ((s.dropWhile p).reverse.takeWhile p) ++ ((s.dropWhile p).reverse.dropWhile p) :=
    (List.takeWhile_append_dropWhile).symm
  have e3 := congrArg List.reverse e2
  rw [List.reverse_reverse, List.reverse_append] at e3
  refine ⟨s.takeWhile p, ((s.dropWhile p).reverse.takeWhile p).reverse, ?_, ?_, ?_⟩
  · rw [pyStrip, ← e3, ← e1]
  · intro c hc; exact List.all_eq_true.1 (List.all_takeWhile (l := s)) c hc
  · intro c hc
    rw [List.mem_reverse] at hc
    exact List.all_eq_true.1 (List.all_takeWhile (l := (s.dropWhile p).reverse)) c hc

theorem pyStrip_last (p : Char → Bool) (s : Str) (c : Char) (h : (pyStrip p s).getLast? = some c) : p c = false := by
  rw [pyStrip, List.getLast?_reverse] at h
  cases hd : (s.dropWhile p).reverse.dropWhile p with
  | nil => rw [hd] at h; cases h
  | cons d t =>
    rw [hd] at h; simp at h; subst h
    have := List.head?_dropWhile_not p (s.dropWhile p).reverse
    rw [hd] at this
    simpa using this

theorem nd_collapse (s : Str) : ND (collapse s) := by
  have h0 := (nd_squeeze false s).1
  obtain ⟨a, b, e, _⟩ := pyStrip_sub (inClass pySpace) (squeeze false s)
  obtain ⟨a', b', e', _⟩ := pyStrip_sub (inClass pySpace) (pyStrip (inClass pySpace) (squeeze false s))
  exact ND.sub (ND.sub h0 e) e'

theorem last_collapse (s : Str) : (collapse s).getLast? ≠ some '\n' := by
  intro h
  have := pyStrip_last _ _ _ h
  revert this; decide

/-- stripping the ends -/
theorem pyStrip_mid (p : Char → Bool) (a x b : Str) (ha : ∀ c ∈ a, p c = true) (hb : ∀ c ∈ b, p c = true)
    (h1 : ∃ c t, x = c :: t ∧ p c = false) (h2 : ∃ t c, x = t ++ [c] ∧ p c = false) : pyStrip p (a ++ (x ++ b)) = x := by
  have drop : ∀ (a y : Str), (∀ c ∈ a, p c = true) → (∃ c t, y = c :: t ∧ p c = false) → (a ++ y).dropWhile p = y := by
    intro a y ha hy
    induction a with
    | nil =>
      obtain ⟨c, t, rfl, hc⟩ := hy
      simp [hc]
    | cons d a ih =>
      simp only [List.cons_append, List.dropWhile, ha d (by simp)]
      exact ih (fun c hc => ha c (by simp [hc]))
  rw [pyStrip, drop a _ ha (by obtain ⟨c, t, rfl, hc⟩ := h1; exact ⟨c, t ++ b, rfl, hc⟩), List.reverse_append,
    drop b.reverse _ (by simpa using hb) (by obtain ⟨t, c, rfl, hc⟩ := h2; exact ⟨c, t.reverse, by simp, hc⟩), List.reverse_reverse]

theorem pyStrip_id (p : Char → Bool) (x : Str) (h1 : ∃ c t, x = c :: t ∧ p c = false) (h2 : ∃ t c, x = t ++ [c] ∧ p c = false) : pyStrip p x = x := by
  have := pyStrip_mid p [] x [] (by simp) (by simp) h1 h2
  simpa using this

theorem ends_of_all (p : Char → Bool) (x : Str) (hn : x ≠ []) (h : ∀ c ∈ x, p c = false) :
    (∃ c t, x = c :: t ∧ p c = false) ∧ (∃ t c, x = t ++ [c] ∧ p c = false) := by
  constructor
  · cases x with
    | nil => exact absurd rfl hn
    | cons c t => exact ⟨c, t, rfl, h c (by simp)⟩
  · exact ⟨x.dropLast, x.getLast hn, (List.dropLast_concat_getLast hn).symm, h _ (List.getLast_mem hn)⟩

/-- leading and trailing whitespace of the specification -/
theorem collapse_around (pre s post : Str) (h1 : ∀ c ∈ pre, isWs c = true) (h2 : ∀ c ∈ post, isWs c = true) (x y : Char) (m : Str)
    (hs : s = x :: (m ++ [y])) (hx : isWs x = false) (hy : isWs y = false) : collapse (pre ++ (s ++ post)) = squeeze false s := by
  have sq : ∀ b, squeeze b s = squeeze false s := by
    intro b; rw [hs]; simp only [squeeze, show inClass pySpace x = false from hx, Bool.false_eq_true, if_false]
  have ws : ∀ b u, (∀ c ∈ u, isWs c = true) → ∀ c ∈ squeeze b u, isWs c = true := by
    intro b u hu
    induction u generalizing b with
    | nil => simp [squeeze]
    | cons d u ih =>
      have : inClass pySpace d = true := hu d (by simp)
      simp only [squeeze, this, if_true]
      cases b with
      | true => exact ih true (fun c hc => hu c (by simp [hc]))
      | false =>
        intro c hc
        simp at hc
        rcases hc with rfl | hc
        · decide
        · exact ih true (fun c hc => hu c (by simp [hc])) c hc
  have f1 : ∃ c t, squeeze false s = c :: t ∧ inClass pySpace c = false := by
    rw [hs]; simp only [squeeze, show inClass pySpace x = false from hx, Bool.false_eq_true, if_false]
    exact ⟨x, _, rfl, hx⟩
  have f2 : ∃ t c, squeeze false s = t ++ [c] ∧ inClass pySpace c = false := by
    rw [hs, show x :: (m ++ [y]) = (x :: m) ++ [y] from rfl, squeeze_append]
    refine ⟨squeeze false (x :: m), y, ?_, hy⟩
    simp only [squeeze, show inClass pySpace y = false from hy, Bool.false_eq_true, if_false]
  rw [collapse, squeeze_append, squeeze_append, sq]
  have := pyStrip_mid (inClass pySpace) (squeeze false pre) (squeeze false s) (squeeze (endSt (endSt false pre) s) post) (ws _ _ h1) (ws _ _ h2) f1 f2
  rw [this]
  exact pyStrip_id _ _ f1 f2

/-! ### Reading values -/

theorem key_notQuote {n : Str} (h : Rfc4512.keystring n) : ∀ c ∈ n, (fun c => c == '\'') c = false := by
  intro c hc
  have := alpha_not c '\'' ((keystring_chars h).2 c hc) (by decide)
  simpa using this

theorem strip_quotes {n : Str} (h : Rfc4512.keystring n) : pyStrip (fun c => c == '\'') ('\'' :: (n ++ ['\''])) = n := by
  obtain ⟨e1, e2⟩ := ends_of_all _ n (keystring_chars h).1 (key_notQuote h)
  exact pyStrip_mid (fun c => c == '\'') ['\''] n ['\''] (by simp) (by simp) e1 e2

theorem no_space_key {n : Str} (h : Rfc4512.keystring n) : ' ' ∉ n :=
  fun hc => alpha_not _ _ ((keystring_chars h).2 _ hc) (by decide) rfl

theorem split_names (n : Str) (l : List Str) (r : Str) (hn : Rfc4512.keystring n) (hr : Rfc4512.moreNames codeLex l r)
    (nd : ND (('\'' :: (n ++ ['\''])) ++ r)) :
    (pySplit ' ' (('\'' :: (n ++ ['\''])) ++ r)).map (pyStrip (fun c => c == '\'')) = n :: l := by
  have h0 : ' ' ∉ ('\'' :: (n ++ ['\''])) := by simp [no_space_key hn]
  induction l generalizing n r with
  | nil =>
    rw [show r = [] from hr, List.append_nil, split_none _ _ h0]
    simp only [List.map, strip_quotes hn]
  | cons n' l ih =>
    obtain ⟨a, _, rfl, ha, q, r', rfl, hq, hr'⟩ := hr
    obtain ⟨hn', rfl⟩ := qdescr_eq.1 hq
    obtain ⟨ha1, ha2⟩ := (SP_iff a).1 ha
    have ha : a = [' '] := by
      cases a with
      | nil => exact absurd rfl ha1
      | cons c a =>
        cases a with
        | nil => rw [ha2 c (by simp)]
        | cons d a =>
          rw [ha2 c (by simp), ha2 d (by simp)] at nd
          exact absurd rfl (nd ('\'' :: (n ++ ['\''])) (a ++ ('\'' :: (n' ++ ['\'']) ++ r')))
    subst ha
    have nd' : ND (('\'' :: (n' ++ ['\''])) ++ r') := ND.sub (z := []) nd (x := ('\'' :: (n ++ ['\''])) ++ [' ']) (by simp)
    rw [show ('\'' :: (n ++ ['\''])) ++ ([' '] ++ ('\'' :: (n' ++ ['\'']) ++ r')) = ('\'' :: (n ++ ['\''])) ++ ' ' :: ('\'' :: (n' ++ ['\'']) ++ r') from rfl,
      split_app _ _ _ h0]
    simp only [List.map_cons, strip_quotes hn]
    rw [ih n' r' hn' hr' nd' (by simp [no_space_key hn'])]

/-- the last character of a list of names is a quote -/
theorem moreNames_last {l : List Str} {r : Str} (h : Rfc4512.moreNames codeLex l r) (x : Str) : ∃ t, (x ++ ['\'']) ++ r = t ++ ['\''] := by
  induction l generalizing x r with
  | nil => rw [show r = [] from h]; exact ⟨x, by simp⟩
  | cons n l ih =>
    obtain ⟨a, _, rfl, ha, q, r', rfl, hq, hr'⟩ := h
    obtain ⟨_, rfl⟩ := qdescr_eq.1 hq
    obtain ⟨t, ht⟩ := ih hr' (x ++ (['\''] ++ (a ++ ('\'' :: n))))
    exact ⟨t, by rw [← ht]; simp⟩

theorem parseQdescrs_eq {l : List Str} {v : Str} (h : Rfc4512.qdescrs codeLex l v) (nd : ND v) : parseQdescrs (some v) = l := by
  cases l with
  | nil => exact h.elim
  | cons n l =>
    simp only [parseQdescrs]
    rcases h with ⟨rfl, h⟩ | ⟨p, _, rfl, hp, a, _, rfl, ha, q, _, rfl, hq, r, _, rfl, hr, b, z, rfl, hb, hz⟩
    · obtain ⟨hn, rfl⟩ := qdescr_eq.1 h
      rw [pyStrip_id _ _ ⟨'\'', _, rfl, by decide⟩ ⟨'\'' :: n, '\'', by simp, by decide⟩]
      have := split_names n [] [] hn rfl (by simpa using nd)
      simpa using this
    · have hp' : p = ['('] := hp
      have hz' : z = [')'] := hz
      subst hp' hz'
      obtain ⟨hn, rfl⟩ := qdescr_eq.1 hq
      rw [WSP_iff] at ha hb
      have e : ['('] ++ (a ++ (('\'' :: (n ++ ['\''])) ++ (r ++ (b ++ [')'])))) = ('(' :: a) ++ ((('\'' :: (n ++ ['\''])) ++ r) ++ (b ++ [')'])) := by simp
      rw [e] at nd ⊢
      rw [pyStrip_mid]
      · exact split_names n l r hn hr (nd.sub rfl)
      · intro c hc; simp at hc; rcases hc with rfl | hc
        · decide
        · simp [ha c hc]
      · intro c hc; simp at hc; rcases hc with hc | rfl
        · simp [hb c hc]
        · decide
      · exact ⟨'\'', _, rfl, by decide⟩
      · obtain ⟨t, ht⟩ := moreNames_last hr ('\'' :: n)
        exact ⟨t, '\'', by rw [← ht]; simp, by decide⟩

theorem oid_nws {o : Str} (h : Rfc4512.oid codeLex o) : ∀ c ∈ o, inClass pySpace c = false := fun c hc => alpha_nws ((oid_chars h).2 c hc)

theorem strip_oid {o : Str} (h : Rfc4512.oid codeLex o) : pyStrip (inClass pySpace) o = o := by
  obtain ⟨e1, e2⟩ := ends_of_all _ o (oid_chars h).1 (oid_nws h)
  exact pyStrip_id _ _ e1 e2

theorem strip_around {o : Str} (h : Rfc4512.oid codeLex o) (a b : Str) (ha : ∀ c ∈ a, c = ' ') (hb : ∀ c ∈ b, c = ' ') :
    pyStrip (inClass pySpace) (a ++ (o ++ b)) = o := by
  obtain ⟨e1, e2⟩ := ends_of_all _ o (oid_chars h).1 (oid_nws h)
  exact pyStrip_mid _ _ _ _ (fun c hc => by rw [ha c hc]; decide) (fun c hc => by rw [hb c hc]; decide) e1 e2

theorem no_dollar {o : Str} (h : Rfc4512.oid codeLex o) : '$' ∉ o :=
  fun hc => alpha_not _ _ ((oid_chars h).2 _ hc) (by decide) rfl

theorem split_oids (a o : Str) (l : List Str) (r : Str) (ha : ∀ c ∈ a, c = ' ') (ho : Rfc4512.oid codeLex o) (hr : Rfc4512.moreOids codeLex l r) :
    (pySplit '$' (a ++ (o ++ r))).map (pyStrip (inClass pySpace)) = o :: l := by
  have h0 : '$' ∉ a := fun hc => absurd (ha _ hc) (by decide)
  induction l generalizing a o r with
  | nil =>
    rw [show r = [] from hr, split_none _ _ (by simp [h0, no_dollar ho])]
    simp only [List.map, strip_around ho a [] ha (by simp)]
  | cons o' l ih =>
    obtain ⟨b, _, rfl, hb, p, _, rfl, hp, c, _, rfl, hc, _, r', rfl, ⟨rfl, ho'⟩, hr'⟩ := hr
    rename_i o'
    rw [WSP_iff] at hb hc
    rw [show p = ['$'] from hp, show a ++ (o ++ (b ++ (['$'] ++ (c ++ (o' ++ r'))))) = (a ++ (o ++ b)) ++ '$' :: (c ++ (o' ++ r')) by simp,
      split_app _ _ _ (by simp [h0, no_dollar ho]; exact fun h => absurd (hb _ h) (by decide))]
    simp only [List.map_cons, strip_around ho a b ha hb]
    rw [ih c o' r' hc ho' hr' (fun h => absurd (hc _ h) (by decide))]

theorem moreOids_last {l : List Str} {r o : Str} (ho : Rfc4512.oid codeLex o) (h : Rfc4512.moreOids codeLex l r) (x : Str) :
    ∃ t c, x ++ (o ++ r) = t ++ [c] ∧ (c == '(' || c == ')' || c == ' ') = false := by
  induction l generalizing x r o with
  | nil =>
    rw [show r = [] from h, List.append_nil]
    obtain ⟨h1, h2⟩ := oid_chars ho
    refine ⟨x ++ o.dropLast, o.getLast h1, by rw [List.append_assoc, List.dropLast_concat_getLast], ?_⟩
    have := h2 _ (List.getLast_mem h1)
    have e1 := alpha_not _ '(' this (by decide)
    have e2 := alpha_not _ ')' this (by decide)
    have e3 := alpha_not _ ' ' this (by decide)
    simp [e1, e2, e3]
  | cons n l ih =>
    obtain ⟨b, _, rfl, hb, p, _, rfl, hp, c, _, rfl, hc, _, r', rfl, ⟨rfl, ho'⟩, hr'⟩ := h
    obtain ⟨t, d, ht, hd⟩ := ih ho' hr' (x ++ (o ++ (b ++ (p ++ c))))
    exact ⟨t, d, by rw [← ht]; simp, hd⟩

theorem parseOids_eq {l : List Str} {v : Str} (h : Rfc4512.oids codeLex l v) : parseOids (some v) = l := by
  cases l with
  | nil => exact h.elim
  | cons n l =>
    have nonp : ∀ {o : Str}, Rfc4512.oid codeLex o → ∃ c t, o = c :: t ∧ (c == '(' || c == ')' || c == ' ') = false := by
      intro o ho
      obtain ⟨h1, h2⟩ := oid_chars ho
      cases o with
      | nil => exact absurd rfl h1
      | cons c t =>
        have := h2 c (by simp)
        have e1 := alpha_not _ '(' this (by decide)
        have e2 := alpha_not _ ')' this (by decide)
        have e3 := alpha_not _ ' ' this (by decide)
        exact ⟨c, t, rfl, by simp [e1, e2, e3]⟩
    have eq : ∀ v : Str, v ≠ [] → parseOids (some v) = (pySplit '$' (pyStrip (fun c => c == '(' || c == ')' || c == ' ') v)).map (pyStrip (inClass pySpace)) := by
      intro v hv
      cases v with
      | nil => exact absurd rfl hv
      | cons => rfl
    rcases h with ⟨rfl, rfl, h⟩ | ⟨p, _, rfl, hp, a, _, rfl, ha, _, _, rfl, ⟨rfl, hn⟩, r, _, rfl, hr, b, z, rfl, hb, hz⟩
    · rw [eq v (oid_chars h).1]
      obtain ⟨t, c, e, hc⟩ := moreOids_last h (show Rfc4512.moreOids codeLex [] [] from rfl) []
      rw [pyStrip_id _ v (nonp h) ⟨t, c, by simpa using e, hc⟩]
      have := split_oids [] v [] [] (by simp) h rfl
      simpa using this
    · rename_i n
      have hp' : p = ['('] := hp
      have hz' : z = [')'] := hz
      subst hp' hz'
      rw [WSP_iff] at ha hb
      have e : ['('] ++ (a ++ (n ++ (r ++ (b ++ [')'])))) = ('(' :: a) ++ ((n ++ r) ++ (b ++ [')'])) := by simp
      rw [eq _ (by simp), e, pyStrip_mid]
      · have := split_oids [] n l r (by simp) hn hr
        simpa using this
      · intro c hc; simp at hc; rcases hc with rfl | hc
        · decide
        · simp [ha c hc]
      · intro c hc; simp at hc; rcases hc with hc | rfl
        · simp [hb c hc]
        · decide
      · obtain ⟨c, t, rfl, hc⟩ := nonp hn
        exact ⟨c, t ++ r, rfl, hc⟩
      · obtain ⟨t, c, e, hc⟩ := moreOids_last hn hr []
        exact ⟨t, c, by simpa using e, hc⟩

theorem syntaxParts_eq {p : Str × Option Nat} {v : Str} (h : Rfc4512.noidlen codeLex p v) : syntaxParts v = p := by
  obtain ⟨o, n⟩ := p
  have nb : ∀ {o : Str}, Rfc4512.numericoid codeLex o → '{' ∉ o :=
    fun ho hc => alpha_not _ _ ((oid_chars (Or.inr ho)).2 _ hc) (by decide) rfl
  cases n with
  | none =>
    obtain ⟨rfl, h⟩ := h
    rw [syntaxParts, split_none _ _ (nb h)]
  | some n =>
    obtain ⟨_, _, rfl, ⟨rfl, hu⟩, p, _, rfl, hp, d, q, rfl, ⟨hd, hdn⟩, hq⟩ := h
    rename_i o
    rw [show p = ['{'] from hp, show q = ['}'] from hq]
    obtain ⟨h1, h2⟩ := number_chars hd
    have h3 : '{' ∉ d ++ ['}'] := by
      simp
      exact fun hc => alpha_not _ '{' (Or.inr (Or.inl (h2 _ hc))) (by decide) rfl
    have h4 : ∀ c ∈ d, (fun c => c == '}') c = false := by
      intro c hc
      have := alpha_not _ '}' (Or.inr (Or.inl (h2 c hc))) (by decide)
      simpa using this
    obtain ⟨e1, e2⟩ := ends_of_all _ d h1 h4
    have e3 := pyStrip_mid (fun c => c == '}') [] d ['}'] (by simp) (by simp) e1 e2
    rw [List.nil_append] at e3
    rw [syntaxParts, show o ++ (['{'] ++ (d ++ ['}'])) = o ++ '{' :: (d ++ ['}']) from rfl, split_app _ _ _ (nb hu), split_none _ _ h3]
    simp only [e3]
    rw [← hdn]; rfl

end Laurelin.SchemaSpec
