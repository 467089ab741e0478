import Verif.Props.Syntax
import Verif.Props.Utils
import Verif.Lemmas.SchemaRead
import Verif.Spec.Guide
import Verif.Model.BaseRules
/-! C77: the syntax rules for guides -/
namespace Laurelin.GuideP
open Laurelin Spec Abnf Props
open Laurelin.BaseRules (criteria checkTerm guideTerm validateCriteria)

/-- characters that mean nothing to the scan -/
def plain (c : Char) : Bool := c.isAlphanum || c == '-' || c == '.' || c == '$' || c == '?'

theorem plain_code {c : Char} (h : plain c = true) : 35 < c.toNat ∧ c.toNat < 124 ∧ c ≠ '(' ∧ c ≠ ')' ∧ c ≠ '&' ∧ c ≠ '!' ∧ c ≠ '|' ∧ c ≠ '#' := by
  simp only [plain, Char.isAlphanum, Char.isAlpha, Char.isUpper, Char.isLower, Char.isDigit, Bool.or_eq_true, Bool.and_eq_true, decide_eq_true_eq, beq_iff_eq] at h
  rcases h with (((h | rfl) | rfl) | rfl) | rfl
  · have e : ∀ d : Char, c = d → c.toNat = d.toNat := fun d h => by rw [h]
    have : 35 < c.toNat ∧ c.toNat < 124 ∧ c.toNat ≠ 40 ∧ c.toNat ≠ 41 ∧ c.toNat ≠ 38 := by
      simp only [ge_iff_le, Char.le_def, UInt32.le_iff_toNat_le] at h
      simp only [Char.toNat]
      have e1 : 'A'.val.toNat = 65 := rfl
      have e2 : 'Z'.val.toNat = 90 := rfl
      have e3 : 'a'.val.toNat = 97 := rfl
      have e4 : 'z'.val.toNat = 122 := rfl
      have e5 : '0'.val.toNat = 48 := rfl
      have e6 : '9'.val.toNat = 57 := rfl
      have e7 : (65 : UInt32).toNat = 65 := rfl
      have e8 : (90 : UInt32).toNat = 90 := rfl
      have e9 : (97 : UInt32).toNat = 97 := rfl
      have e10 : (122 : UInt32).toNat = 122 := rfl
      have e11 : (48 : UInt32).toNat = 48 := rfl
      have e12 : (57 : UInt32).toNat = 57 := rfl
      omega
    refine ⟨this.1, this.2.1, ?_, ?_, ?_, ?_, ?_, ?_⟩ <;> intro hc <;> have := e _ hc <;> simp only [Char.reduceToNat] at this <;> omega
  all_goals decide

theorem plain_not_space {c : Char} (h : plain c = true) : inClass pySpace c = false := by
  have := plain_code h
  simp only [inClass, pySpace, List.any_cons, List.any_nil, Bool.or_false, Bool.or_eq_false_iff, Bool.and_eq_false_iff, decide_eq_false_iff_not]
  omega

/-- nothing but plain characters -/
def Plain (s : Str) : Prop := s ≠ [] ∧ ∀ c ∈ s, plain c = true

theorem plain_oid {s : Str} (h : Rfc4517.oid s) : Plain s := by
  rcases h with ⟨_, v, rfl, ⟨c, rfl, hc⟩, hv⟩ | ⟨u, v, rfl, hu, hv⟩
  · rw [Rx.many_chr] at hv
    refine ⟨by simp, ?_⟩
    intro d hd
    rcases List.mem_append.1 hd with hd | hd
    · rw [List.mem_singleton.1 hd]; simp [plain, Char.isAlphanum, hc]
    · have := hv d hd
      simp only [Bool.or_eq_true] at this
      simp only [plain, Bool.or_eq_true]
      rcases this with h | h <;> simp [h]
  · have hn : ∀ w, Rfc4517.number w → Plain w := by
      intro w hw
      have := SyntaxP.number_digits w hw
      rw [show Rfc4517.DIGIT = chr Char.isDigit from rfl, Rx.many1_chr] at this
      exact ⟨this.1, fun c hc => by simp [plain, Char.isAlphanum, this.2 c hc]⟩
    obtain ⟨l, hl, rfl, hl2⟩ := hv
    refine ⟨by simp [(hn u hu).1], ?_⟩
    intro d hd
    rcases List.mem_append.1 hd with hd | hd
    · exact (hn u hu).2 d hd
    · obtain ⟨w, hw, hdw⟩ := List.mem_flatten.1 hd
      obtain ⟨a, b, rfl, ha, hb⟩ := hl2 w hw
      rw [show a = ['.'] from ha] at hdw
      rcases List.mem_append.1 hdw with hd | hd
      · rw [List.mem_singleton.1 hd]; decide
      · exact (hn b hb).2 d hd

theorem plain_words (l : List Str) (h : l.all (fun w => w.all plain && !w.isEmpty) = true) {s : Str} (hs : s ∈ l) : Plain s := by
  have := List.all_eq_true.1 h s hs
  simp only [Bool.and_eq_true, List.all_eq_true, Bool.not_eq_true', List.isEmpty_eq_false_iff] at this
  exact ⟨this.2, this.1⟩

theorem plain_simple {s : Str} (h : Guide.simple s) : Plain s := by
  rcases h with ⟨u, _, rfl, hu, a, m, rfl, ha, hm⟩ | h
  · have h1 := plain_oid hu
    have h2 : Plain m := plain_words _ (by decide) hm
    rw [show a = ['$'] from ha]
    refine ⟨by simp, ?_⟩
    intro c hc
    rcases List.mem_append.1 hc with hc | hc
    · exact h1.2 c hc
    · rcases List.mem_append.1 hc with hc | hc
      · rw [List.mem_singleton.1 hc]; decide
      · exact h2.2 c hc
  · exact plain_words _ (by decide) h

theorem langTerm (s : Str) (h : Guide.simple s) : guideTerm.Lang s := by
  rw [guideTerm, Rx.lang_any]
  rcases h with h | h
  · refine ⟨_, List.mem_cons_self, ?_⟩
    rw [Rx.lang_cat]
    simp only [List.map_cons, List.map_nil, cats]
    refine SyntaxP.cat_mono ?_ (SyntaxP.cat_mono ?_ ?_) s h
    · intro s hs
      rw [Syntax.oid, Rx.Lang, SyntaxP.lang_descr, SyntaxP.lang_numericoid]
      exact SyntaxP.alt_mono (fun _ h => h) (SyntaxP.cat_mono SyntaxP.number_digits (SyntaxP.many1_mono (SyntaxP.cat_mono (fun _ h => h) SyntaxP.number_digits))) s hs
    · intro s hs; rw [Rx.lang_lit]; exact hs
    · intro s hs
      have : ∀ l : List Str, oneOf l s → (Rx.any (l.map .lit)).Lang s := fun l hl => by rw [Rx.lang_any_lit]; exact hl
      exact this _ hs
  · simp only [oneOf, List.mem_cons, List.not_mem_nil, or_false] at h
    rcases h with rfl | rfl
    · exact ⟨_, List.mem_cons_of_mem _ List.mem_cons_self, by rw [Rx.lang_lit]; rfl⟩
    · exact ⟨_, List.mem_cons_of_mem _ (List.mem_cons_of_mem _ List.mem_cons_self), by rw [Rx.lang_lit]; rfl⟩

theorem langTerm_iff (s : Str) : guideTerm.Lang s ↔ Guide.simpleLoose s := by
  have e : ∀ l : List Str, (Rx.any (l.map .lit)).Lang s ↔ oneOf l s := fun l => by rw [Rx.lang_any_lit]
  have hc : (Rx.cat [Syntax.oid, .lit ['$'], .any ([str "EQ", str "SUBSTR", str "GE", str "LE", str "APPROX"].map .lit)]).Lang =
      cats [alt Rfc4517.descr (cat (many1 Rfc4517.DIGIT) (many1 (cat (lit ['.']) (many1 Rfc4517.DIGIT)))), lit ['$'],
        oneOf [str "EQ", str "SUBSTR", str "GE", str "LE", str "APPROX"]] := by
    rw [Rx.lang_cat, List.map_cons, List.map_cons, List.map_cons, List.map_nil, Rx.lang_any_lit, Rx.lang_lit, Syntax.oid, Rx.Lang, SyntaxP.lang_descr, SyntaxP.lang_numericoid]
  rw [guideTerm, Rx.lang_any, Guide.simpleLoose, alt]
  simp only [List.mem_cons, List.not_mem_nil, or_false, exists_eq_or_imp, exists_eq_left]
  rw [hc, Rx.lang_lit, Rx.lang_lit]
  simp [oneOf, lit]

theorem checkTerm_simple {s : Str} (h : Guide.simple s) : checkTerm s = .ok () := by
  have : guideTerm.prefixMatch s = true := (Rx.prefix_iff _ _).2 ⟨s, [], by simp, langTerm s h⟩
  simp [checkTerm, this]

theorem checkTerm_nil : checkTerm [] = .ok () := by simp [checkTerm]

/-! ### The scan without its bound -/

theorem fuel_enough : ∀ (n m : Nat) (term s : Str), s.length < n → s.length < m → criteria n term s = criteria m term s := by
  intro n
  induction n with
  | zero => intro m term s h; omega
  | succ n ih =>
    intro m term s h1 h2
    cases m with
    | zero => omega
    | succ m =>
      cases s with
      | nil => rfl
      | cons c t =>
        simp only [List.length_cons] at h1 h2
        have hd : ∀ e, (t.drop e).length < n ∧ (t.drop e).length < m := fun e => by simp only [List.length_drop]; omega
        have ht : ∀ e, (t.take e).length < n ∧ (t.take e).length < m := fun e => by simp only [List.length_take]; omega
        simp only [criteria]
        have e1 := ih m [] t (by omega) (by omega)
        have e2 := ih m term t (by omega) (by omega)
        have e3 := ih m (term ++ [c]) t (by omega) (by omega)
        rw [e1, e2, e3]
        by_cases hc : c = '('
        · simp only [hc, if_true]
          cases hf : findClosingParen ('(' :: t) with
          | error e => rfl
          | ok e =>
            simp only
            rw [ih m [] (t.take (e - 1)) (ht _).1 (ht _).2, ih m term (t.drop e) (hd _).1 (hd _).2]
        · simp only [hc, if_false]

/-- the scan -/
def scan (term s : Str) : Except Err Unit := criteria (s.length + 1) term s

theorem scan_nil (term : Str) : scan term [] = checkTerm term := rfl

theorem scan_cons (term : Str) (c : Char) (t : Str) : scan term (c :: t) =
    if c = '(' then
      match findClosingParen (c :: t) with
      | .error e => .error e
      | .ok e => match scan [] (t.take (e - 1)) with
        | .error e => .error e
        | .ok () => scan term (t.drop e)
    else if c = '|' ∨ c = '&' then
      match checkTerm term with
      | .error e => .error e
      | .ok () => scan [] t
    else if c = '!' then scan term t else scan (term ++ [c]) t := by
  have hd : ∀ e, criteria (t.length + 1) term (t.drop e) = scan term (t.drop e) := fun e => fuel_enough _ _ _ _ (by simp only [List.length_drop]; omega) (by omega)
  have ht : ∀ e, criteria (t.length + 1) [] (t.take e) = scan [] (t.take e) := fun e => fuel_enough _ _ _ _ (by simp only [List.length_take]; omega) (by omega)
  rw [scan]
  simp only [List.length_cons, criteria, hd, ht]
  split
  · cases findClosingParen (c :: t) with
    | error e => rfl
    | ok e => simp only; cases scan [] (t.take (e - 1)) <;> rfl
  · split
    · cases checkTerm term <;> rfl
    · rfl

theorem scan_plain : ∀ (s : Str) (term rest : Str), (∀ c ∈ s, plain c = true) → scan term (s ++ rest) = scan (term ++ s) rest := by
  intro s
  induction s with
  | nil => intro term rest _; simp
  | cons c s ih =>
    intro term rest h
    obtain ⟨_, _, h1, h2, h3, h4, h5, _⟩ := plain_code (h c (by simp))
    rw [List.cons_append, scan_cons, if_neg h1, if_neg (by simp [h3, h5]), if_neg h4, ih _ _ (fun d hd => h d (by simp [hd]))]
    simp

theorem paren_plain : ∀ (s : Str) (p i : Nat) (rest : Str), (∀ c ∈ s, c ≠ '(' ∧ c ≠ ')') → 0 < p → parenScan p i (s ++ rest) = parenScan p (i + s.length) rest := by
  intro s
  induction s with
  | nil => intro p i rest _ _; simp
  | cons c s ih =>
    intro p i rest h hp
    obtain ⟨h1, h2⟩ := h c (by simp)
    rw [List.cons_append, parenScan]
    simp only [h1, h2, if_false]
    rw [if_neg (by omega), ih _ _ _ (fun d hd => h d (by simp [hd])) hp]
    simp only [List.length_cons]
    congr 1
    omega

/-- what the scan does with a well-formed text -/
structure Fine (s : Str) : Prop where
  ne : s ≠ []
  paren : ∀ (p i : Nat) (rest : Str), 0 < p → parenScan p i (s ++ rest) = parenScan p (i + s.length) rest
  scan : ∀ rest, ∃ term, checkTerm term = .ok () ∧ GuideP.scan [] (s ++ rest) = GuideP.scan term rest
  chars : ∀ c ∈ s, inClass pySpace c = false ∧ c ≠ '#'

theorem fine_sep {a c : Str} (d : Char) (hd : d = '|' ∨ d = '&') (ha : Fine a) (hc : Fine c) : Fine (a ++ d :: c) := by
  refine ⟨by simp, ?_, ?_, ?_⟩
  · intro p i rest hp
    rw [List.append_assoc, ha.paren _ _ _ hp, List.cons_append, parenScan]
    have : d ≠ '(' ∧ d ≠ ')' := by rcases hd with rfl | rfl <;> decide
    simp only [this.1, this.2, if_false]
    rw [if_neg (by omega), hc.paren _ _ _ hp]
    congr 1
    simp only [List.length_append, List.length_cons]; omega
  · intro rest
    obtain ⟨t, h1, h2⟩ := ha.scan (d :: (c ++ rest))
    obtain ⟨t', h3, h4⟩ := hc.scan rest
    refine ⟨t', h3, ?_⟩
    rw [List.append_assoc, List.cons_append, h2, scan_cons, if_neg (by rcases hd with rfl | rfl <;> decide), if_pos hd, h1]
    exact h4
  · intro e he
    rcases List.mem_append.1 he with he | he
    · exact ha.chars e he
    · rcases List.mem_cons.1 he with rfl | he
      · rcases hd with rfl | rfl <;> decide
      · exact hc.chars e he

mutual
theorem fineC {s : Str} : Guide.Criteria s → Fine s
  | .one _ h => fineA h
  | .or _ _ h1 h2 => fine_sep '|' (Or.inl rfl) (fineA h1) (fineC h2)
theorem fineA {s : Str} : Guide.AndTerm s → Fine s
  | .one _ h => fineT h
  | .and _ _ h1 h2 => fine_sep '&' (Or.inr rfl) (fineT h1) (fineA h2)
theorem fineT {s : Str} : Guide.Term s → Fine s
  | .not t h => by
    have f := fineT h
    refine ⟨by simp, ?_, ?_, ?_⟩
    · intro p i rest hp
      rw [List.cons_append, parenScan]
      simp only [show '!' ≠ '(' by decide, show '!' ≠ ')' by decide, if_false]
      rw [if_neg (by omega), f.paren _ _ _ hp]
      congr 1
      simp only [List.length_cons]; omega
    · intro rest
      obtain ⟨t', h1, h2⟩ := f.scan rest
      exact ⟨t', h1, by rw [List.cons_append, scan_cons, if_neg (by decide), if_neg (by decide), if_pos rfl]; exact h2⟩
    · intro e he
      rcases List.mem_cons.1 he with rfl | he
      · decide
      · exact f.chars e he
  | .simple _ h => by
    have f := plain_simple h
    refine ⟨f.1, ?_, ?_, ?_⟩
    · intro p i rest hp
      exact paren_plain s p i rest (fun c hc => by have := plain_code (f.2 c hc); exact ⟨this.2.2.1, this.2.2.2.1⟩) hp
    · intro rest
      exact ⟨s, checkTerm_simple h, by rw [scan_plain s [] rest f.2]; rfl⟩
    · intro c hc
      exact ⟨plain_not_space (f.2 c hc), by have := plain_code (f.2 c hc); exact this.2.2.2.2.2.2.2⟩
  | .paren c h => by
    have f := fineC h
    refine ⟨by simp, ?_, ?_, ?_⟩
    · intro p i rest hp
      rw [List.cons_append, parenScan]
      simp only [if_true]
      rw [if_neg (by omega), List.append_assoc, f.paren _ _ _ (by omega), List.cons_append, parenScan]
      simp only [show ')' ≠ '(' by decide, if_false, if_true]
      rw [if_neg (by omega)]
      simp only [List.length_cons, List.length_append, List.nil_append, List.length_nil]
      congr 1
      omega
    · intro rest
      obtain ⟨t, h1, h2⟩ := f.scan []
      refine ⟨[], checkTerm_nil, ?_⟩
      rw [List.cons_append, List.append_assoc, scan_cons, if_pos rfl, findClosingParen]
      simp only [ne_eq, not_true, if_false]
      rw [f.paren 1 0 _ (by omega), List.cons_append, parenScan]
      simp only [show ')' ≠ '(' by decide, if_false, if_true, Nat.sub_self]
      simp only [Nat.zero_add, Nat.add_sub_cancel, List.take_left]
      rw [List.append_nil] at h2
      rw [h2, scan_nil, h1]
      simp
    · intro e he
      rcases List.mem_cons.1 he with rfl | he
      · decide
      · rcases List.mem_append.1 he with he | he
        · exact f.chars e he
        · rw [List.mem_singleton.1 he]; decide
end

theorem scan_of_criteria {s : Str} (h : Guide.Criteria s) : scan [] s = .ok () := by
  obtain ⟨t, h1, h2⟩ := (fineC h).scan []
  rw [List.append_nil] at h2
  rw [h2, scan_nil, h1]

theorem split_app (a r : Str) (h : '#' ∉ a) : pySplit '#' (a ++ '#' :: r) = a :: pySplit '#' r := by
  induction a with
  | nil => simp [pySplit]
  | cons c a ih =>
    simp only [List.mem_cons, not_or] at h
    rw [List.cons_append, pySplit, if_neg (fun e => h.1 e.symm), ih h.2]

theorem split_one (a : Str) (h : '#' ∉ a) : pySplit '#' a = [a] := by
  induction a with
  | nil => rfl
  | cons c a ih =>
    simp only [List.mem_cons, not_or] at h
    rw [pySplit, if_neg (fun e => h.1 e.symm), ih h.2]

theorem wsp_iff (s : Str) : Rfc4517.WSP s ↔ ∀ c ∈ s, c = ' ' := by
  have : Rfc4517.WSP = many (chr (fun c => c == ' ')) := by
    rw [Rfc4517.WSP]
    congr 1
    funext s
    simp only [chr, lit, beq_iff_eq, eq_iff_iff]
    exact ⟨fun h => ⟨' ', h, rfl⟩, fun ⟨c, h1, h2⟩ => by rw [h1, h2]⟩
  rw [this, Rx.many_chr]
  simp

theorem class_fine {s : Str} (h : Guide.objectClass s) : '#' ∉ s ∧ BaseRules.guideClass.prefixMatch s = true := by
  refine ⟨?_, (Rx.prefix_iff _ _).2 ⟨s, [], by simp, ?_⟩⟩
  · obtain ⟨a, _, rfl, ha, o, b, rfl, ho, hb⟩ := h
    have hb : Rfc4517.WSP b := hb
    rw [wsp_iff] at ha hb
    intro hm
    rcases List.mem_append.1 hm with hm | hm
    · exact absurd (ha _ hm) (by decide)
    · rcases List.mem_append.1 hm with hm | hm
      · exact (plain_code ((plain_oid ho).2 _ hm)).2.2.2.2.2.2.2 rfl
      · exact absurd (hb _ hm) (by decide)
  · rw [BaseRules.guideClass, Rx.lang_cat]
    simp only [List.map, cats]
    have hw : ∀ s, Rfc4517.WSP s → Syntax.wsp.Lang s := by
      intro s hs
      rw [wsp_iff] at hs
      rw [Syntax.wsp, Rx.Lang, Rx.Lang, Rx.many_chr]
      simpa using hs
    refine SyntaxP.cat_mono hw (SyntaxP.cat_mono ?_ hw) s h
    intro s hs
    rw [Syntax.oid, Rx.Lang, SyntaxP.lang_descr, SyntaxP.lang_numericoid]
    exact SyntaxP.alt_mono (fun _ h => h) (SyntaxP.cat_mono SyntaxP.number_digits (SyntaxP.many1_mono (SyntaxP.cat_mono (fun _ h => h) SyntaxP.number_digits))) s hs

theorem ends {s : Str} (h : Fine s) : (∃ c t, s = c :: t ∧ inClass pySpace c = false) ∧ ∃ t c, s = t ++ [c] ∧ inClass pySpace c = false := by
  constructor
  · cases s with
    | nil => exact absurd rfl h.ne
    | cons c t => exact ⟨c, t, rfl, (h.chars c (by simp)).1⟩
  · have := List.dropLast_concat_getLast h.ne
    exact ⟨s.dropLast, s.getLast h.ne, this.symm, (h.chars _ (List.getLast_mem h.ne)).1⟩

/-- a term as the scan checks it -/
def Ok (t : Str) : Prop := t = [] ∨ ∃ a b, t = a ++ b ∧ Guide.simpleLoose a

theorem check_iff (t : Str) : checkTerm t = .ok () ↔ Ok t := by
  unfold checkTerm Ok
  by_cases h : t = []
  · simp [h]
  · have : guideTerm.prefixMatch t = true ↔ ∃ a b, t = a ++ b ∧ Guide.simpleLoose a := by simp only [Rx.prefix_iff, langTerm_iff]
    by_cases hp : guideTerm.prefixMatch t = true
    · simp only [hp, Bool.true_eq_false, and_false, if_false, true_iff]; exact Or.inr (this.1 hp)
    · simp only [h, ne_eq, not_false_eq_true, true_and, false_or]
      rw [← this]
      simp [hp]

theorem pieces_ne (s : Str) : Guide.pieces s ≠ [] := by
  cases s with
  | nil => simp [Guide.pieces]
  | cons c t =>
    rw [Guide.pieces]
    split
    · simp
    · split <;> simp

theorem scan_flat : ∀ (s term : Str), '(' ∉ s → (scan term s = .ok () ↔
    ∃ p ps, Guide.pieces s = p :: ps ∧ Ok (term ++ p.filter (fun c => c != '!')) ∧ ∀ q ∈ ps, Ok (q.filter (fun c => c != '!'))) := by
  intro s
  induction s with
  | nil =>
    intro term _
    rw [scan_nil, check_iff]
    constructor
    · intro h; exact ⟨[], [], rfl, by simpa using h, by simp⟩
    · rintro ⟨p, ps, h1, h2, _⟩
      simp only [Guide.pieces, List.cons.injEq] at h1
      rw [← h1.1] at h2
      simpa using h2
  | cons c t ih =>
    intro term hp
    simp only [List.mem_cons, not_or] at hp
    rw [scan_cons, if_neg (fun e => hp.1 e.symm)]
    by_cases hsep : c = '|' ∨ c = '&'
    · rw [if_pos hsep]
      obtain ⟨p, ps, hps⟩ := List.exists_cons_of_ne_nil (pieces_ne t)
      have i := ih [] hp.2
      cases hc : checkTerm term with
      | error e =>
        constructor
        · intro h; cases h
        · rintro ⟨p, ps, h1, h2, _⟩
          rw [Guide.pieces, if_pos hsep] at h1
          rw [← (List.cons.inj h1).1] at h2
          simp only [List.filter_nil, List.append_nil] at h2
          rw [(check_iff term).2 h2] at hc
          cases hc
      | ok u =>
        have hok := (check_iff term).1 hc
        simp only
        rw [i, Guide.pieces, if_pos hsep]
        constructor
        · rintro ⟨p, ps, h1, h2, h3⟩
          exact ⟨[], p :: ps, by rw [h1], by simpa using hok, fun q hq => by
            rcases List.mem_cons.1 hq with rfl | hq
            · simpa using h2
            · exact h3 q hq⟩
        · rintro ⟨p', ps', h1, h2, h3⟩
          obtain ⟨h1a, h1b⟩ := List.cons.inj h1
          exact ⟨p, ps, hps, by simpa using h3 p (by rw [← h1b, hps]; simp), fun q hq => h3 q (by rw [← h1b, hps]; simp [hq])⟩
    · rw [if_neg hsep, Guide.pieces, if_neg hsep]
      obtain ⟨p, ps, hps⟩ := List.exists_cons_of_ne_nil (pieces_ne t)
      rw [hps]
      by_cases hb : c = '!'
      · rw [if_pos hb, ih term hp.2, hps, hb]
        constructor
        · rintro ⟨p', ps', h1, h2, h3⟩
          obtain ⟨rfl, rfl⟩ := List.cons.inj h1
          exact ⟨'!' :: p, ps, rfl, by simpa using h2, h3⟩
        · rintro ⟨p', ps', h1, h2, h3⟩
          obtain ⟨rfl, rfl⟩ := List.cons.inj h1
          exact ⟨p, ps, rfl, by simpa using h2, h3⟩
      · rw [if_neg hb, ih _ hp.2, hps]
        constructor
        · rintro ⟨p', ps', h1, h2, h3⟩
          obtain ⟨rfl, rfl⟩ := List.cons.inj h1
          exact ⟨c :: p, ps, rfl, by simpa [hb] using h2, h3⟩
        · rintro ⟨p', ps', h1, h2, h3⟩
          obtain ⟨rfl, rfl⟩ := List.cons.inj h1
          exact ⟨p, ps, rfl, by simpa [hb] using h2, h3⟩

theorem scan_errors : ∀ (n : Nat) (s term : Str) (e : Err), s.length < n → scan term s = .error e → e = .invalidSyntax ∨ e = .valueError := by
  intro n
  have hck : ∀ (t : Str) (e : Err), checkTerm t = .error e → e = .invalidSyntax := by
    intro t e h
    unfold checkTerm at h
    split at h
    · cases h; rfl
    · cases h
  induction n with
  | zero => intro s term e h; omega
  | succ n ih =>
    intro s term e hl h
    cases s with
    | nil => exact Or.inl (hck _ _ h)
    | cons c t =>
      simp only [List.length_cons] at hl
      rw [scan_cons] at h
      split at h
      · rename_i hc
        cases hf : findClosingParen (c :: t) with
        | error x =>
          rw [hf] at h
          cases h
          rw [hc] at hf
          simp only [findClosingParen, ne_eq, not_true, if_false] at hf
          split at hf <;> cases hf
          exact Or.inr rfl
        | ok k =>
          rw [hf] at h
          simp only at h
          cases hi : scan [] (t.take (k - 1)) with
          | error x =>
            rw [hi] at h; cases h
            exact ih _ _ _ (by simp only [List.length_take]; omega) hi
          | ok u =>
            rw [hi] at h
            exact ih _ _ _ (by simp only [List.length_drop]; omega) h
      · split at h
        · cases hc : checkTerm term with
          | error x => rw [hc] at h; cases h; exact Or.inl (hck _ _ hc)
          | ok u => rw [hc] at h; exact ih _ _ _ (by omega) h
        · split at h
          · exact ih _ _ _ (by omega) h
          · exact ih _ _ _ (by omega) h

end Laurelin.GuideP

namespace Laurelin.Props
open Laurelin Spec Abnf GuideP BaseRules

/-- **C77, Enhanced Guide**: every value RFC 4517 allows is accepted. -/
theorem c77_enhanced_guide (s : Str) (h : Guide.enhancedGuide s) : validateEnhancedGuide s = .ok () := by
  obtain ⟨cls, _, rfl, hcls, h1, _, rfl, hh1, a, _, rfl, ha, c, _, rfl, hc, b, _, rfl, hb, h2, _, rfl, hh2, d, sub, rfl, hd, hsub⟩ := h
  rw [show h1 = ['#'] from hh1, show h2 = ['#'] from hh2]
  rw [wsp_iff] at ha hb hd
  have hf := fineC hc
  have hsp : ∀ l : Str, (∀ x ∈ l, x = ' ') → ∀ x ∈ l, inClass pySpace x = true := fun l hl x hx => by rw [hl x hx]; decide
  have n1 : '#' ∉ a ++ (c ++ b) := by
    intro hm
    rcases List.mem_append.1 hm with hm | hm
    · exact absurd (ha _ hm) (by decide)
    · rcases List.mem_append.1 hm with hm | hm
      · exact (hf.chars _ hm).2 rfl
      · exact absurd (hb _ hm) (by decide)
  have hsub' : Plain sub := plain_words _ (by decide) hsub
  have n2 : '#' ∉ d ++ sub := by
    intro hm
    rcases List.mem_append.1 hm with hm | hm
    · exact absurd (hd _ hm) (by decide)
    · exact (plain_code (hsub'.2 _ hm)).2.2.2.2.2.2.2 rfl
  obtain ⟨c1, c2⟩ := class_fine hcls
  have hs : cls ++ (['#'] ++ (a ++ (c ++ (b ++ (['#'] ++ (d ++ sub)))))) = cls ++ '#' :: ((a ++ (c ++ b)) ++ '#' :: (d ++ sub)) := by simp
  rw [hs, validateEnhancedGuide, GuideP.split_app _ _ c1, GuideP.split_app _ _ n1, GuideP.split_one _ n2]
  have st1 : pyStrip (inClass pySpace) (a ++ (c ++ b)) = c :=
    SchemaSpec.pyStrip_mid _ a c b (hsp a ha) (hsp b hb) (ends hf).1 (ends hf).2
  have st2 : pyStrip (inClass pySpace) (d ++ sub) = sub := by
    have := SchemaSpec.pyStrip_mid (inClass pySpace) d sub [] (hsp d hd) (by simp)
      (by
        cases sub with
        | nil => exact absurd rfl hsub'.1
        | cons x t => exact ⟨x, t, rfl, plain_not_space (hsub'.2 x (by simp))⟩)
      ⟨sub.dropLast, sub.getLast hsub'.1, (List.dropLast_concat_getLast hsub'.1).symm, plain_not_space (hsub'.2 _ (List.getLast_mem hsub'.1))⟩
    simpa using this
  simp only [c2, st2, Bool.true_eq_false, if_false]
  rw [if_neg (fun hn => hn hsub), validateCriteria, st1]
  exact scan_of_criteria hc

/-- **C77, Guide, the part that holds**: every value RFC 4517 allows that names an object class is accepted. -/
theorem c77_guide_partial (s : Str) (h : cats [Guide.objectClass, lit ['#'], Guide.Criteria] s) : validateGuide s = .ok () := by
  obtain ⟨cls, _, rfl, hcls, h1, c, rfl, hh1, hc⟩ := h
  rw [show h1 = ['#'] from hh1]
  have hf := fineC hc
  obtain ⟨c1, c2⟩ := class_fine hcls
  have n1 : '#' ∉ c := fun hm => (hf.chars _ hm).2 rfl
  rw [List.singleton_append, validateGuide, GuideP.split_app _ _ c1, GuideP.split_one _ n1]
  simp only [c2, Bool.true_eq_false, if_false]
  rw [validateCriteria, SchemaSpec.pyStrip_id _ c (ends hf).1 (ends hf).2]
  exact scan_of_criteria hc

/-- **C77, Guide, what fails**: one without an object class is refused, although RFC 4517 makes it optional. -/
theorem c77_guide_no_class (s : Str) (h : '#' ∉ s) : validateGuide s = .error .invalidSyntax := by
  rw [validateGuide, GuideP.split_one _ h]

example : Guide.guide (str "sn$EQ") ∧ '#' ∉ str "sn$EQ" :=
  ⟨⟨[], _, rfl, Or.inl rfl, .one _ (.one _ (.simple _ (Or.inl ⟨str "sn", _, rfl, Or.inl ⟨str "s", str "n", rfl, ⟨'s', rfl, by decide⟩, [str "n"], rfl, by
    intro u hu; rw [List.mem_singleton.1 hu]; exact ⟨'n', rfl, by decide⟩⟩, str "$", str "EQ", rfl, rfl, List.mem_cons_self⟩)))⟩, by decide⟩

/-- **C77, exactly which criteria without parentheses are accepted**: those where what is between the `|` and `&`, ignoring exclamation marks, is empty or *begins* with a comparison or constant. -/
theorem c77_criteria_flat (s : Str) (h : '(' ∉ s) : validateCriteria s = .ok () ↔
    ∀ p ∈ Guide.pieces (pyStrip (inClass pySpace) s), p.filter (fun c => c != '!') = [] ∨ ∃ a b, p.filter (fun c => c != '!') = a ++ b ∧ Guide.simpleLoose a := by
  obtain ⟨a, b, hab, _, _⟩ := SchemaSpec.pyStrip_sub (inClass pySpace) s
  have h' : '(' ∉ pyStrip (inClass pySpace) s := fun hm => h (by rw [hab]; simp [hm])
  rw [show validateCriteria s = scan [] (pyStrip (inClass pySpace) s) from rfl, scan_flat _ _ h']
  obtain ⟨p, ps, hps⟩ := List.exists_cons_of_ne_nil (pieces_ne (pyStrip (inClass pySpace) s))
  rw [hps]
  constructor
  · rintro ⟨p', ps', h1, h2, h3⟩
    obtain ⟨rfl, rfl⟩ := List.cons.inj h1
    intro q hq
    rcases List.mem_cons.1 hq with rfl | hq
    · exact h2
    · exact h3 q hq
  · intro hall
    exact ⟨p, ps, rfl, hall p (by simp), fun q hq => hall q (by simp [hq])⟩

theorem class_loose : BaseRules.guideClass.Lang = Guide.classLoose := by
  have hw : Syntax.wsp.Lang = Rfc4517.WSP := by
    funext s
    rw [eq_iff_iff, wsp_iff, Syntax.wsp, Rx.Lang, Rx.Lang, Rx.many_chr]
    simp
  have ho : Syntax.oid.Lang = alt Rfc4517.descr (cat (many1 Rfc4517.DIGIT) (many1 (cat (lit ['.']) (many1 Rfc4517.DIGIT)))) := by
    funext s
    rw [Syntax.oid, Rx.Lang, SyntaxP.lang_descr, SyntaxP.lang_numericoid]
  rw [BaseRules.guideClass, Rx.lang_cat, Guide.classLoose]
  simp only [List.map, hw, ho]

/-- **C77, the object class of a guide**: the text before `#` must begin with an object class; then the criteria decide. -/
theorem c77_guide_class (cls crit subset : Str) (h1 : '#' ∉ cls) (h2 : '#' ∉ crit) (h3 : '#' ∉ subset) :
    ((∃ u v, cls = u ++ v ∧ Guide.classLoose u) → validateGuide (cls ++ '#' :: crit) = validateCriteria crit) ∧
    ((¬ ∃ u v, cls = u ++ v ∧ Guide.classLoose u) → validateGuide (cls ++ '#' :: crit) = .error .invalidSyntax ∧
      validateEnhancedGuide (cls ++ '#' :: (crit ++ '#' :: subset)) = .error .invalidSyntax) := by
  rw [← class_loose, ← Rx.prefix_iff]
  constructor
  · intro h
    rw [validateGuide, GuideP.split_app _ _ h1, GuideP.split_one _ h2]
    simp [h]
  · intro h
    rw [validateGuide, GuideP.split_app _ _ h1, GuideP.split_one _ h2, validateEnhancedGuide, GuideP.split_app _ _ h1, GuideP.split_app _ _ h2, GuideP.split_one _ h3]
    simp [h]

example : ∃ u v, str "person x" = u ++ v ∧ Guide.classLoose u := by
  rw [← class_loose, ← Rx.prefix_iff]; decide +kernel
example : ¬ ∃ u v, str " _x" = u ++ v ∧ Guide.classLoose u := by
  rw [← class_loose, ← Rx.prefix_iff]; decide +kernel

/-- **C77**: what else a guide may raise than `InvalidSyntaxError` -/
theorem c77_guide_errors (s : Str) (e : Err) (h : validateGuide s = .error e ∨ validateEnhancedGuide s = .error e) : e = .invalidSyntax ∨ e = .valueError := by
  have hv : ∀ c, validateCriteria c = .error e → e = .invalidSyntax ∨ e = .valueError := fun c hc => scan_errors _ _ _ _ (Nat.lt_succ_self _) hc
  rcases h with h | h
  · unfold validateGuide at h
    split at h
    · split at h
      · cases h; exact Or.inl rfl
      · exact hv _ h
    · cases h; exact Or.inl rfl
  · unfold validateEnhancedGuide at h
    split at h
    · split at h
      · cases h; exact Or.inl rfl
      · split at h
        · cases h; exact Or.inl rfl
        · exact hv _ h
    · cases h; exact Or.inl rfl

/-- **C77, guides, what fails**: a parenthesis that is never closed raises `ValueError`; values outside the grammar are accepted. -/
theorem c77_guide_counterexamples :
    validateGuide (str "person#(sn$EQ") = .error .valueError ∧ validateGuide (str "person#") = .ok () ∧ validateGuide (str "person#sn$EQUAL&|!") = .ok () ∧
    validateGuide (str "per son#sn$EQ") = .ok () ∧ validateGuide (str "person#sn$EQ)") = .ok () ∧ validateGuide (str "sn$EQ") = .error .invalidSyntax ∧
    validateEnhancedGuide (str " person #(sn$EQ)|!(?true&cn$GE) # oneLevel") = .ok () := by
  decide +kernel

end Laurelin.Props
