import Verif.Model.Prep
import Verif.Spec.Rfc4518
/-!
C36 (equality matching rules), C37 (prohibited characters), C38 (distinguishedNameMatch).
-/
namespace Laurelin.Props
open Laurelin Laurelin.Spec

/-- What is assumed of the Unicode database (trusted; all true of Unicode): case folding works character by character, a
space is a boundary for NFKC, neither brings in white space other than U+0020, and both are the obvious thing on ASCII. -/
structure UniLaws (U : Uni) : Prop where
  fold_append : ∀ a b, U.casefold (a ++ b) = U.casefold a ++ U.casefold b
  nfkc_boundary : ∀ a b, U.nfkc (a ++ ' ' :: b) = U.nfkc a ++ ' ' :: U.nfkc b
  fold_white : ∀ s, (∀ c ∈ s, inClass pySpace c = true → c = ' ') → ∀ c ∈ U.casefold s, inClass pySpace c = true → c = ' '
  nfkc_white : ∀ s, (∀ c ∈ s, inClass pySpace c = true → c = ' ') → ∀ c ∈ U.nfkc s, inClass pySpace c = true → c = ' '
  fold_ascii : ∀ s : Str, (∀ c ∈ s, c.toNat < 128) → U.casefold s = s.map Char.toLower
  nfkc_ascii : ∀ s : Str, (∀ c ∈ s, c.toNat < 128) → U.nfkc s = s

/-! ### C36: equivalence -/

/-- **C36.** Every equality rule is reflexive on the values it accepts. -/
theorem c36_reflexive (U : Uni) (r : Str × List PrepMethod) (_ : r ∈ equalityRules) (a x : Str) (h : prepare U r.2 a = .ok x) :
    ruleMatch U r.2 a a = .ok true := by
  simp [ruleMatch, h]

/-- **C36.** Every equality rule is symmetric. -/
theorem c36_symmetric (U : Uni) (r : Str × List PrepMethod) (_ : r ∈ equalityRules) (a b : Str) (t : Bool)
    (h : ruleMatch U r.2 a b = .ok t) : ruleMatch U r.2 b a = .ok t := by
  unfold ruleMatch at *
  cases ha : prepare U r.2 a <;> cases hb : prepare U r.2 b <;> simp [ha, hb] at h ⊢
  rw [← h]; exact BEq.comm

/-- **C36.** Every equality rule is transitive. -/
theorem c36_transitive (U : Uni) (r : Str × List PrepMethod) (_ : r ∈ equalityRules) (a b c : Str)
    (h1 : ruleMatch U r.2 a b = .ok true) (h2 : ruleMatch U r.2 b c = .ok true) : ruleMatch U r.2 a c = .ok true := by
  unfold ruleMatch at *
  cases ha : prepare U r.2 a <;> cases hb : prepare U r.2 b <;> cases hc : prepare U r.2 c <;> simp [ha, hb, hc] at h1 h2 ⊢
  rw [h1, h2]

/-- **C36.** Interchangeable: of two values that match, one can replace the other in every match. -/
theorem c36_interchangeable (U : Uni) (r : Str × List PrepMethod) (_ : r ∈ equalityRules) (a b : Str)
    (h : ruleMatch U r.2 a b = .ok true) (c : Str) : ruleMatch U r.2 a c = ruleMatch U r.2 b c ∧ ruleMatch U r.2 c a = ruleMatch U r.2 c b := by
  unfold ruleMatch at *
  cases ha : prepare U r.2 a <;> cases hb : prepare U r.2 b <;> simp [ha, hb] at h ⊢
  rw [h]; exact ⟨rfl, rfl⟩

namespace PrepP

theorem words_nil : words [] = [] := rfl

theorem words_space (t : Str) : words (' ' :: t) = words t := by simp [words, pySplit]

theorem words_cons (c : Char) (t : Str) (hc : c ≠ ' ') :
    ∃ h r, pySplit ' ' t = h :: r ∧ words (c :: t) = (c :: h) :: r.filter (fun w => !w.isEmpty) := by
  cases hs : pySplit ' ' t with
  | nil => exact absurd hs (pySplit_ne_nil _ _)
  | cons h r => exact ⟨h, r, rfl, by simp [words, pySplit, hc, hs]⟩

theorem words_cons_space (c : Char) (t : Str) (hc : c ≠ ' ') : words (c :: ' ' :: t) = [c] :: words t := by
  simp [words, pySplit, hc]

theorem words_cons_cons (c d : Char) (t : Str) (hc : c ≠ ' ') (hd : d ≠ ' ') :
    ∃ h r, words (d :: t) = h :: r ∧ words (c :: d :: t) = (c :: h) :: r := by
  obtain ⟨h, r, hs, hw⟩ := words_cons d t hd
  refine ⟨d :: h, _, hw, ?_⟩
  simp [words, pySplit, hc, hd, hs]

theorem words_ne_nil (s : Str) (h : ∃ c ∈ s, c ≠ ' ') : words s ≠ [] := by
  induction s with
  | nil => simp at h
  | cons c t ih =>
    by_cases hc : c = ' '
    · subst hc; rw [words_space]; apply ih; simpa using h
    · obtain ⟨h', r, _, hw⟩ := words_cons c t hc
      rw [hw]; simp

theorem words_append_space (a b : Str) : words (a ++ ' ' :: b) = words a ++ words b := by
  induction a with
  | nil => simp [words_space, words_nil]
  | cons c t ih =>
    by_cases hc : c = ' '
    · subst hc; simp only [List.cons_append, words_space]; exact ih
    · cases t with
      | nil => simp only [List.cons_append, List.nil_append]; rw [words_cons_space _ _ hc]; simp [words, pySplit, hc]
      | cons d t =>
        by_cases hd : d = ' '
        · subst hd
          simp only [List.cons_append] at ih ⊢
          rw [words_cons_space _ _ hc, words_cons_space _ _ hc]
          rw [words_space, words_space] at ih
          rw [ih]; rfl
        · simp only [List.cons_append] at ih ⊢
          obtain ⟨h, r, h1, h2⟩ := words_cons_cons c d t hc hd
          obtain ⟨h', r', h1', h2'⟩ := words_cons_cons c d (t ++ ' ' :: b) hc hd
          rw [h2, h2']
          rw [h1, h1'] at ih
          simp at ih ⊢; exact ih

theorem words_trailing (a : Str) : words (a ++ [' ']) = words a := by
  rw [words_append_space]; simp [words_nil]

/-- collapsing runs of spaces, on a text that does not end in a space -/
theorem sub_eq (s : Str) (hl : ∀ c, s.getLast? = some c → c ≠ ' ') :
    subSpaces [' ', ' '] true s = pyJoin [' ', ' '] (words s) ∧
    subSpaces [' ', ' '] false s = (if s.head? = some ' ' then [' ', ' '] else []) ++ pyJoin [' ', ' '] (words s) := by
  induction s with
  | nil => simp [subSpaces, words_nil, pyJoin]
  | cons c t ih =>
    have hl' : ∀ d, t.getLast? = some d → d ≠ ' ' := by
      intro d hd; apply hl; cases t with
      | nil => simp at hd
      | cons e t => rw [List.getLast?_cons_cons]; exact hd
    obtain ⟨i1, i2⟩ := ih hl'
    by_cases hc : c = ' '
    · subst hc
      simp [subSpaces, words_space, i1]
    · have key : c :: subSpaces [' ', ' '] false t = pyJoin [' ', ' '] (words (c :: t)) := by
        rw [i2]
        cases t with
        | nil => simp [words, pySplit, hc, pyJoin]
        | cons d t =>
          by_cases hd : d = ' '
          · subst hd
            rw [words_cons_space _ _ hc, words_space]
            have hne : words t ≠ [] := by
              have hla : ∀ x, (' ' :: t).getLast? = some x → x ≠ ' ' := hl'
              apply words_ne_nil
              cases ht : t.getLast? with
              | none =>
                have : t = [] := by simpa using ht
                subst this
                exact absurd rfl (hla ' ' (by simp))
              | some x =>
                refine ⟨x, List.mem_of_getLast? ht, ?_⟩
                apply hla
                cases t with
                | nil => simp at ht
                | cons y t => rw [List.getLast?_cons_cons]; exact ht
            rw [pyJoin_cons _ _ _ hne]
            simp
          · obtain ⟨h, r, h1, h2⟩ := words_cons_cons c d t hc hd
            rw [h2, h1]
            cases r <;> simp [pyJoin, hd]
      simp [subSpaces, hc, key]

theorem words_join (l : List Str) (h : ∀ w ∈ l, w ≠ [] ∧ ∀ c ∈ w, c ≠ ' ') : words (pyJoin [' ', ' '] l) = l := by
  have one : ∀ w : Str, w ≠ [] → (∀ c ∈ w, c ≠ ' ') → words w = [w] := by
    intro w hw hc
    have : ' ' ∉ w := fun hm => hc _ hm rfl
    have hs : pySplit ' ' w = [w] := by
      clear hw hc
      induction w with
      | nil => rfl
      | cons x t ih =>
        simp at this
        simp [pySplit, ih this.2, Ne.symm this.1]
    simp [words, hs, hw]
  induction l with
  | nil => rfl
  | cons w l ih =>
    have hw := h w (by simp)
    cases l with
    | nil => simpa [pyJoin] using one w hw.1 hw.2
    | cons v l =>
      have : pyJoin [' ', ' '] (w :: v :: l) = w ++ ' ' :: (' ' :: pyJoin [' ', ' '] (v :: l)) := by simp [pyJoin]
      rw [this, words_append_space, words_space, ih (fun w hw => h w (by simp [hw])), one w hw.1 hw.2]; rfl

theorem mem_words (s w : Str) (h : w ∈ words s) : w ≠ [] ∧ ∀ c ∈ w, c ≠ ' ' := by
  simp only [words, List.mem_filter] at h
  refine ⟨by intro he; simp [he] at h, fun c hc he => ?_⟩
  subst he
  exact absurd hc (mem_split ' ' s w h.1)

theorem dropWhile_words (p : Char → Bool) (s : Str) (hp : p ' ' = true) (hs : ∀ c ∈ s, p c = true → c = ' ') :
    words (s.dropWhile p) = words s := by
  induction s with
  | nil => rfl
  | cons c t ih =>
    simp only [List.dropWhile_cons]
    by_cases hc : p c = true
    · have := hs c (by simp) hc; subst this
      simp [hp, words_space, ih (fun c hc => hs c (by simp [hc]))]
    · simp [hc]

theorem dropWhile_rev_words (p : Char → Bool) (s : Str) (hp : p ' ' = true) (hs : ∀ c ∈ s, p c = true → c = ' ') :
    words (s.reverse.dropWhile p).reverse = words s := by
  generalize hr : s.reverse = r
  have : s = r.reverse := by rw [← hr]; simp
  subst this
  clear hr
  induction r with
  | nil => rfl
  | cons c t ih =>
    simp only [List.dropWhile_cons]
    by_cases hc : p c = true
    · have := hs c (by simp) hc; subst this
      simp only [hp, ite_true, List.reverse_cons, words_trailing]
      exact ih (fun c hc => hs c (by simp at hc ⊢; exact Or.inl hc))
    · simp [hc]

theorem strip_words (p : Char → Bool) (s : Str) (hp : p ' ' = true) (hs : ∀ c ∈ s, p c = true → c = ' ') :
    words (pyStrip p s) = words s := by
  rw [pyStrip, dropWhile_rev_words p _ hp, dropWhile_words p s hp hs]
  intro c hc
  exact hs c ((List.dropWhile_sublist p).subset hc)

theorem strip_last (p : Char → Bool) (s : Str) (hp : p ' ' = true) : ∀ c, (pyStrip p s).getLast? = some c → c ≠ ' ' := by
  intro c hc he
  subst he
  simp only [pyStrip, List.getLast?_reverse] at hc
  have := List.head?_dropWhile_not p (s.dropWhile p).reverse
  rw [hc] at this
  simp [hp] at this

theorem strip_head (p : Char → Bool) (s : Str) (hp : p ' ' = true) : (pyStrip p s).head? ≠ some ' ' := by
  intro hc
  simp only [pyStrip, List.head?_reverse] at hc
  generalize hd : s.dropWhile p = d at hc
  have h0 : d.head? ≠ some ' ' := by
    intro h
    have := List.head?_dropWhile_not p s
    rw [hd, h] at this
    simp [hp] at this
  have hsuf : (d.reverse.dropWhile p) <:+ d.reverse := List.dropWhile_suffix p
  have hne : d.reverse.dropWhile p ≠ [] := by intro h; simp [h] at hc
  obtain ⟨pre, hpre⟩ := hsuf
  have hlast : (pre ++ d.reverse.dropWhile p).getLast? = some ' ' := by rw [List.getLast?_append, hc]; rfl
  rw [hpre, List.getLast?_reverse] at hlast
  exact h0 hlast

theorem pySpace_space : inClass pySpace ' ' = true := by decide

/-- the canonical form produced for a text whose only white space is U+0020 -/
theorem insigSpace_eq (s : Str) (hs : ∀ c ∈ s, inClass pySpace c = true → c = ' ') :
    insigSpace s = ' ' :: pyJoin [' ', ' '] (words s) ++ [' '] := by
  rw [insigSpace, (sub_eq _ (strip_last _ s pySpace_space)).2, if_neg (strip_head _ s pySpace_space), strip_words _ s pySpace_space hs]
  rfl

theorem insigSpace_iff (s t : Str) (hs : ∀ c ∈ s, inClass pySpace c = true → c = ' ')
    (ht : ∀ c ∈ t, inClass pySpace c = true → c = ' ') : insigSpace s = insigSpace t ↔ words s = words t := by
  rw [insigSpace_eq s hs, insigSpace_eq t ht]
  constructor
  · intro h
    have h : pyJoin [' ', ' '] (words s) = pyJoin [' ', ' '] (words t) := by simpa using h
    rw [← words_join (words s) (mem_words s), ← words_join (words t) (mem_words t), h]
  · intro h; rw [h]

theorem class_space : inClass mapSpace ' ' = true := by decide

/-- every white space character of Python is mapped to a space or to nothing -/
theorem pySpace_mapped (c : Char) (h : inClass pySpace c = true) : inClass mapNothing c = true ∨ inClass mapSpace c = true := by
  simp only [inClass, pySpace, mapNothing, mapSpace, List.any_cons, List.any_nil, Bool.or_false, Bool.or_eq_true, Bool.and_eq_true,
    decide_eq_true_eq] at *
  omega

theorem map_white (s : Str) : ∀ c ∈ mapCharacters s, inClass pySpace c = true → c = ' ' := by
  intro c hc hp
  simp only [mapCharacters, List.mem_map, List.mem_filter] at hc
  obtain ⟨d, ⟨_, hd⟩, rfl⟩ := hc
  split
  · rfl
  · rename_i h
    rw [if_neg h] at hp
    rcases pySpace_mapped d hp with h' | h'
    · simp [h'] at hd
    · exact absurd h' h

theorem prepare_exact (U : Uni) (a : Str) : prepare U caseExactPrep a =
    match Laurelin.prohibit (U.nfkc (mapCharacters a)) with
    | .error e => .error e
    | .ok x => .ok (insigSpace x) := by
  simp only [prepare, caseExactPrep, PrepMethod.run]
  cases Laurelin.prohibit (U.nfkc (mapCharacters a)) <;> rfl

theorem prepare_ignore (U : Uni) (a : Str) : prepare U caseIgnorePrep a =
    match Laurelin.prohibit (U.nfkc (U.casefold (mapCharacters a))) with
    | .error e => .error e
    | .ok x => .ok (insigSpace x) := by
  simp only [prepare, caseIgnorePrep, PrepMethod.run]
  cases Laurelin.prohibit (U.nfkc (U.casefold (mapCharacters a))) <;> rfl

theorem prepare_numeric (U : Uni) (a : Str) : prepare U numericPrep a =
    match Laurelin.prohibit (U.nfkc (mapCharacters a)) with
    | .error e => .error e
    | .ok x => .ok (insigNumeric x) := by
  simp only [prepare, numericPrep, PrepMethod.run]
  cases Laurelin.prohibit (U.nfkc (mapCharacters a)) <;> rfl

theorem prepare_telephone (U : Uni) (a : Str) : prepare U telephonePrep a =
    match Laurelin.prohibit (U.nfkc (U.casefold (mapCharacters a))) with
    | .error e => .error e
    | .ok x => .ok (insigTelephone x) := by
  simp only [prepare, telephonePrep, PrepMethod.run]
  cases Laurelin.prohibit (U.nfkc (U.casefold (mapCharacters a))) <;> rfl

theorem prohibit_ok (s x : Str) (h : Laurelin.prohibit s = .ok x) : x = s := by
  unfold Laurelin.prohibit at h
  split at h
  · simpa using h.symm
  · split at h <;> simp at h
    exact h.symm

/-- the common shape of the four preparations -/
theorem match_shape (U : Uni) (ms : List PrepMethod) (pre post : Str → Str)
    (hp : ∀ a, prepare U ms a = match Laurelin.prohibit (pre a) with | .error e => .error e | .ok x => .ok (post x))
    (a b : Str) (r : Bool) (h : ruleMatch U ms a b = .ok r) : (r = true ↔ post (pre a) = post (pre b)) := by
  simp only [ruleMatch, hp] at h
  cases ha : Laurelin.prohibit (pre a) with
  | error e => simp [ha] at h
  | ok x =>
    cases hb : Laurelin.prohibit (pre b) with
    | error e => simp [ha, hb] at h
    | ok y =>
      rw [prohibit_ok _ _ ha, prohibit_ok _ _ hb] at *
      simp [ha, hb] at h
      rw [← h]; simp

theorem numeric_eq (s : Str) (b : Bool) : subSpaces [] b s = s.filter (fun c => c != ' ') := by
  induction s generalizing b with
  | nil => simp [subSpaces]
  | cons c t ih =>
    by_cases hc : c = ' '
    · subst hc; cases b <;> simp [subSpaces, ih]
    · simp [subSpaces, hc, ih]

end PrepP

/-! ### C36: what the rules ignore -/

/-- **C36.** `caseExactMatch` and `caseExactIA5Match`: accepted values match exactly when, after RFC 4518 mapping and
normalisation, they are the same sequence of words; nothing else about spaces counts. -/
theorem c36_case_exact (U : Uni) (hU : UniLaws U) (a b : Str) (r : Bool) (h : ruleMatch U caseExactPrep a b = .ok r) :
    r = true ↔ words (U.nfkc (mapCharacters a)) = words (U.nfkc (mapCharacters b)) := by
  rw [PrepP.match_shape U _ _ _ (PrepP.prepare_exact U) a b r h]
  exact PrepP.insigSpace_iff _ _ (hU.nfkc_white _ (PrepP.map_white a)) (hU.nfkc_white _ (PrepP.map_white b))

/-- **C36.** `caseIgnoreMatch`, `caseIgnoreIA5Match`, `caseIgnoreListMatch`: the same after case folding. -/
theorem c36_case_ignore (U : Uni) (hU : UniLaws U) (a b : Str) (r : Bool) (h : ruleMatch U caseIgnorePrep a b = .ok r) :
    r = true ↔ words (U.nfkc (U.casefold (mapCharacters a))) = words (U.nfkc (U.casefold (mapCharacters b))) := by
  rw [PrepP.match_shape U _ _ _ (PrepP.prepare_ignore U) a b r h]
  exact PrepP.insigSpace_iff _ _ (hU.nfkc_white _ (hU.fold_white _ (PrepP.map_white a)))
    (hU.nfkc_white _ (hU.fold_white _ (PrepP.map_white b)))

/-- **C36.** `numericStringMatch` ignores spaces and nothing else. -/
theorem c36_numeric (U : Uni) (a b : Str) (r : Bool) (h : ruleMatch U numericPrep a b = .ok r) :
    r = true ↔ (U.nfkc (mapCharacters a)).filter (fun c => c != ' ') = (U.nfkc (mapCharacters b)).filter (fun c => c != ' ') := by
  rw [PrepP.match_shape U _ _ _ (PrepP.prepare_numeric U) a b r h, insigNumeric, insigNumeric, PrepP.numeric_eq, PrepP.numeric_eq]

/-- **C36.** `telephoneNumberMatch` ignores case, spaces and hyphens and nothing else. -/
theorem c36_telephone (U : Uni) (a b : Str) (r : Bool) (h : ruleMatch U telephonePrep a b = .ok r) :
    r = true ↔ (U.nfkc (U.casefold (mapCharacters a))).filter (fun c => !inClass telIgnored c) =
      (U.nfkc (U.casefold (mapCharacters b))).filter (fun c => !inClass telIgnored c) := by
  rw [PrepP.match_shape U _ _ _ (PrepP.prepare_telephone U) a b r h]; rfl

namespace PrepP

theorem words_map (f : Str → Str) (h0 : f [] = []) (hf : ∀ a b, f (a ++ ' ' :: b) = f a ++ ' ' :: f b) (s : Str) :
    words (f s) = (words s).flatMap (fun w => words (f w)) := by
  generalize hn : s.length = n
  induction n using Nat.strongRecOn generalizing s with
  | ind n ih =>
    by_cases hm : ' ' ∈ s
    · obtain ⟨a, b, rfl⟩ := List.append_of_mem hm
      rw [hf, words_append_space, words_append_space, List.flatMap_append]
      rw [ih a.length (by rw [← hn]; simp) a rfl, ih b.length (by rw [← hn]; simp; omega) b rfl]
    · have hs : words s = if s = [] then [] else [s] := by
        have : pySplit ' ' s = [s] := split_none ' ' s hm
        simp only [words, this]
        by_cases h : s = [] <;> simp [h]
      rw [hs]
      by_cases h : s = []
      · subst h; rw [h0]; rfl
      · simp [h]

theorem fold_space (U : Uni) (hU : UniLaws U) (a b : Str) : U.casefold (a ++ ' ' :: b) = U.casefold a ++ ' ' :: U.casefold b := by
  rw [show ' ' :: b = [' '] ++ b from rfl, hU.fold_append, hU.fold_append, hU.fold_ascii [' '] (by decide)]
  rfl

theorem fold_nil (U : Uni) (hU : UniLaws U) : U.casefold [] = [] := hU.fold_ascii [] (by simp)
theorem nfkc_nil (U : Uni) (hU : UniLaws U) : U.nfkc [] = [] := hU.nfkc_ascii [] (by simp)

end PrepP

/-- **C36.** Values that differ only in surrounding or repeated spaces (once every RFC 4518 space character is written as
U+0020 and the invisible characters are gone) match under every case-exact and case-ignore rule. -/
theorem c36_spaces_ignored (U : Uni) (hU : UniLaws U) (ms : List PrepMethod) (hm : ms = caseExactPrep ∨ ms = caseIgnorePrep)
    (a b : Str) (hw : words (mapCharacters a) = words (mapCharacters b)) (r : Bool) (h : ruleMatch U ms a b = .ok r) : r = true := by
  rcases hm with rfl | rfl
  · rw [c36_case_exact U hU a b r h, PrepP.words_map _ (PrepP.nfkc_nil U hU) hU.nfkc_boundary (mapCharacters a), hw,
      ← PrepP.words_map _ (PrepP.nfkc_nil U hU) hU.nfkc_boundary]
  · rw [c36_case_ignore U hU a b r h, PrepP.words_map _ (PrepP.nfkc_nil U hU) hU.nfkc_boundary,
      PrepP.words_map _ (PrepP.nfkc_nil U hU) hU.nfkc_boundary (U.casefold (mapCharacters b)),
      PrepP.words_map _ (PrepP.fold_nil U hU) (PrepP.fold_space U hU), hw, ← PrepP.words_map _ (PrepP.fold_nil U hU) (PrepP.fold_space U hU)]

/-- **C36.** Values that are equal up to case match under every case-ignore rule. -/
theorem c36_case_ignored (U : Uni) (ms : List PrepMethod) (hm : ms = caseIgnorePrep ∨ ms = telephonePrep)
    (a b : Str) (hw : U.casefold (mapCharacters a) = U.casefold (mapCharacters b)) (r : Bool) (h : ruleMatch U ms a b = .ok r) : r = true := by
  rcases hm with rfl | rfl
  · rw [PrepP.match_shape U _ _ _ (PrepP.prepare_ignore U) a b r h, hw]
  · rw [PrepP.match_shape U _ _ _ (PrepP.prepare_telephone U) a b r h, hw]

/-- printable ASCII, the characters U+0020 to U+007E -/
def Printable (s : Str) : Prop := ∀ c ∈ s, 0x20 ≤ c.toNat ∧ c.toNat < 0x7f

namespace PrepP

theorem map_printable (s : Str) (h : Printable s) : mapCharacters s = s := by
  have h1 : s.filter (fun c => !inClass mapNothing c) = s := by
    rw [List.filter_eq_self]
    intro c hc
    have := h c hc
    simp only [inClass, mapNothing, List.any_cons, List.any_nil, Bool.or_false, Bool.not_eq_true', Bool.or_eq_false_iff, Bool.and_eq_false_iff,
      decide_eq_false_iff_not]
    omega
  rw [mapCharacters, h1]
  conv => rhs; rw [← List.map_id s]
  apply List.map_congr_left
  intro c hc
  have := h c hc
  split
  · rename_i hs
    simp only [inClass, mapSpace, List.any_cons, List.any_nil, Bool.or_false, Bool.or_eq_true, Bool.and_eq_true, decide_eq_true_eq] at hs
    have hn : c.toNat = 32 := by omega
    apply Char.ext; apply UInt32.toNat_inj.1
    exact hn.symm
  · rfl

theorem ascii_ind (P : Char → Prop) (h : ∀ n, n < 128 → P (Char.ofNat n)) (c : Char) (hc : c.toNat < 128) : P c := by
  have := h c.toNat hc
  rwa [Char.ofNat_toNat] at this

theorem toLower_ascii (c : Char) (h : c.toNat < 128) : c.toLower.toNat < 128 :=
  ascii_ind (fun c => c.toLower.toNat < 128) (by decide) c h

theorem ascii_prohibited (c : Char) (h : c.toNat < 128) : inClass prohibitedTable c = decide (c = 'F') :=
  ascii_ind (fun c => inClass prohibitedTable c = decide (c = 'F')) (by decide +kernel) c h

theorem toLower_F (c : Char) (h : c.toNat < 128) : c.toLower ≠ 'F' :=
  ascii_ind (fun c => c.toLower ≠ 'F') (by decide) c h

theorem ascii_ignored (c : Char) (h : c.toNat < 128) : inClass telIgnored c = (c == ' ' || c == '-') :=
  ascii_ind (fun c => inClass telIgnored c = (c == ' ' || c == '-')) (by decide +kernel) c h

theorem printable_ascii (s : Str) (h : Printable s) : ∀ c ∈ s, c.toNat < 128 := fun c hc => by have := h c hc; omega

theorem prohibit_ascii (s : Str) (h : ∀ c ∈ s, c.toNat < 128) :
    Laurelin.prohibit s = if s.head? = some 'F' then .error .prohibited else .ok s := by
  cases s with
  | nil => simp [Laurelin.prohibit]
  | cons c t => simp [Laurelin.prohibit, ascii_prohibited c (h c (by simp))]

theorem lower_ascii (s : Str) (h : ∀ c ∈ s, c.toNat < 128) : ∀ c ∈ s.map Char.toLower, c.toNat < 128 := by
  intro c hc
  obtain ⟨d, hd, rfl⟩ := List.mem_map.1 hc
  exact toLower_ascii d (h d hd)

theorem lower_head (s : Str) (h : ∀ c ∈ s, c.toNat < 128) : (s.map Char.toLower).head? ≠ some 'F' := by
  cases s with
  | nil => simp
  | cons c t => simpa using toLower_F c (h c (by simp))

theorem white_ascii (s : Str) (h : Printable s) : ∀ c ∈ s, inClass pySpace c = true → c = ' ' := by
  rw [← map_printable s h]; exact map_white s

theorem toLower_white (c : Char) (h : c.toNat < 128) (h2 : 0x20 ≤ c.toNat) : 0x20 ≤ c.toLower.toNat :=
  ascii_ind (fun c => 0x20 ≤ c.toNat → 0x20 ≤ c.toLower.toNat) (by decide) c h h2

theorem toLower_del (c : Char) (h : c.toNat < 127) : c.toLower.toNat < 127 :=
  ascii_ind (fun c => c.toNat < 127 → c.toLower.toNat < 127) (by decide) c (by omega) h

theorem lower_printable (s : Str) (h : Printable s) : Printable (s.map Char.toLower) := by
  intro c hc
  obtain ⟨d, hd, rfl⟩ := List.mem_map.1 hc
  have := h d hd
  exact ⟨toLower_white d (by omega) this.1, toLower_del d this.2⟩

end PrepP

/-- **C36 on printable ASCII**, for the case-ignore rules: no value is refused, and two values match exactly when their words are
the same up to case. -/
theorem c36_ascii_case_ignore (U : Uni) (hU : UniLaws U) (a b : Str) (ha : Printable a) (hb : Printable b) :
    ruleMatch U caseIgnorePrep a b = .ok (decide (words (a.map Char.toLower) = words (b.map Char.toLower))) := by
  have hp : ∀ a, Printable a → prepare U caseIgnorePrep a = .ok (insigSpace (a.map Char.toLower)) := by
    intro a ha
    have h1 := PrepP.printable_ascii a ha
    rw [PrepP.prepare_ignore, PrepP.map_printable a ha, hU.fold_ascii a h1, hU.nfkc_ascii _ (PrepP.lower_ascii a h1),
      PrepP.prohibit_ascii _ (PrepP.lower_ascii a h1), if_neg (PrepP.lower_head a h1)]
  have := PrepP.insigSpace_iff _ _ (PrepP.white_ascii _ (PrepP.lower_printable a ha)) (PrepP.white_ascii _ (PrepP.lower_printable b hb))
  simp only [ruleMatch, hp a ha, hp b hb, Except.ok.injEq]
  rw [Bool.eq_iff_iff]; simp [this]

/-- **C36 on printable ASCII**, for the case-exact rules: two values match exactly when their words are the same, except that a value
beginning with the capital letter F is refused (a slip in the table of prohibited characters, see C37). -/
theorem c36_ascii_case_exact (U : Uni) (hU : UniLaws U) (a b : Str) (ha : Printable a) (hb : Printable b) :
    ruleMatch U caseExactPrep a b =
      if a.head? = some 'F' ∨ b.head? = some 'F' then .error .prohibited else .ok (decide (words a = words b)) := by
  have hp : ∀ a, Printable a → prepare U caseExactPrep a = if a.head? = some 'F' then .error .prohibited else .ok (insigSpace a) := by
    intro a ha
    have h1 := PrepP.printable_ascii a ha
    rw [PrepP.prepare_exact, PrepP.map_printable a ha, hU.nfkc_ascii _ h1, PrepP.prohibit_ascii _ h1]
    by_cases hf : a.head? = some 'F' <;> simp [hf]
  have := PrepP.insigSpace_iff _ _ (PrepP.white_ascii _ ha) (PrepP.white_ascii _ hb)
  simp only [ruleMatch, hp a ha, hp b hb]
  by_cases h1 : a.head? = some 'F' <;> by_cases h2 : b.head? = some 'F' <;> simp [h1, h2]
  rw [Bool.eq_iff_iff]; simp [this]

/-- **C36 on printable ASCII**, for `telephoneNumberMatch`: exactly case, spaces and hyphens are ignored. -/
theorem c36_ascii_telephone (U : Uni) (hU : UniLaws U) (a b : Str) (ha : Printable a) (hb : Printable b) :
    ruleMatch U telephonePrep a b = .ok (decide (((a.map Char.toLower).filter (fun c => !(c == ' ' || c == '-'))) =
      (b.map Char.toLower).filter (fun c => !(c == ' ' || c == '-')))) := by
  have hp : ∀ a, Printable a → prepare U telephonePrep a = .ok ((a.map Char.toLower).filter (fun c => !(c == ' ' || c == '-'))) := by
    intro a ha
    have h1 := PrepP.printable_ascii a ha
    rw [PrepP.prepare_telephone, PrepP.map_printable a ha, hU.fold_ascii a h1, hU.nfkc_ascii _ (PrepP.lower_ascii a h1),
      PrepP.prohibit_ascii _ (PrepP.lower_ascii a h1), if_neg (PrepP.lower_head a h1)]
    simp only [insigTelephone]
    congr 1
    apply List.filter_congr
    intro c hc
    rw [PrepP.ascii_ignored c (PrepP.lower_ascii a h1 c hc)]
  simp only [ruleMatch, hp a ha, hp b hb, Except.ok.injEq]
  rw [Bool.eq_iff_iff]; simp

/-- **C36 on printable ASCII**, for `numericStringMatch`: exactly spaces are ignored; a numeric string never begins with F. -/
theorem c36_ascii_numeric (U : Uni) (hU : UniLaws U) (a b : Str) (ha : Printable a) (hb : Printable b)
    (h1 : a.head? ≠ some 'F') (h2 : b.head? ≠ some 'F') :
    ruleMatch U numericPrep a b = .ok (decide (a.filter (fun c => c != ' ') = b.filter (fun c => c != ' '))) := by
  have hp : ∀ a, Printable a → a.head? ≠ some 'F' → prepare U numericPrep a = .ok (a.filter (fun c => c != ' ')) := by
    intro a ha hf
    have h1 := PrepP.printable_ascii a ha
    rw [PrepP.prepare_numeric, PrepP.map_printable a ha, hU.nfkc_ascii _ h1, PrepP.prohibit_ascii _ h1, if_neg hf]
    simp only [insigNumeric, PrepP.numeric_eq]
  simp only [ruleMatch, hp a ha h1, hp b hb h2, Except.ok.injEq]
  rw [Bool.eq_iff_iff]; simp

/-- A Unicode database restricted to ASCII meets the assumptions. -/
def asciiUni : Uni := ⟨List.map Char.toLower, id⟩

theorem asciiUni_laws : UniLaws asciiUni where
  fold_append := by intro a b; simp [asciiUni]
  nfkc_boundary := by intro a b; rfl
  nfkc_white := by intro s h; exact h
  fold_ascii := by intro s h; rfl
  nfkc_ascii := by intro s h; rfl
  fold_white := by
    intro s h c hc hp
    obtain ⟨d, hd, rfl⟩ := List.mem_map.1 hc
    by_cases ha : d.toNat < 128
    · have := PrepP.ascii_ind (fun d => inClass pySpace d.toLower = true → inClass pySpace d = true ∧ (d = ' ' → d.toLower = ' ')) (by decide +kernel) d ha hp
      exact this.2 (h d hd this.1)
    · have hl : d.toLower = d := by
        rw [Char.toLower, dif_neg]
        intro hc
        have := hc.2
        simp only [UInt32.le_iff_toNat_le] at this
        have h2 : d.toNat ≤ 90 := this
        omega
      rw [hl] at hp ⊢
      exact h d hd hp

example : ruleMatch asciiUni caseIgnorePrep (str " John  Smith") (str "john sMITH ") = .ok true := by decide +kernel
example : ruleMatch asciiUni caseExactPrep (str "john  smith") (str " john smith ") = .ok true := by decide +kernel
example : ruleMatch asciiUni caseExactPrep (str "john smith") (str "johnsmith") = .ok false := by decide +kernel
example : ruleMatch asciiUni telephonePrep (str "+1 555-1234") (str "+1-5551234") = .ok true := by decide +kernel
example : ruleMatch asciiUni numericPrep (str "12 34") (str "1 2 3 4") = .ok true := by decide +kernel

theorem listed_iff (l : List (Nat × Nat)) (c : Char) : inClass l c = true ↔ Listed l c := by
  simp [inClass, Listed, List.any_eq_true]

theorem listed_nothing (c : Char) : inClass mapNothing c = true ↔ Listed mappedToNothing c := by
  rw [← listed_iff]
  simp only [inClass, mapNothing, mappedToNothing, List.any_cons, List.any_nil, Bool.or_false, Bool.or_eq_true, Bool.and_eq_true, decide_eq_true_eq]
  omega

theorem listed_space (c : Char) : inClass mapSpace c = true ↔ Listed mappedToSpace c := by
  rw [← listed_iff]
  simp only [inClass, mapSpace, mappedToSpace, List.any_cons, List.any_nil, Bool.or_false, Bool.or_eq_true, Bool.and_eq_true, decide_eq_true_eq]
  omega

theorem listed_excl (c : Char) (h : Listed mappedToSpace c) : ¬ Listed mappedToNothing c := by
  rw [← listed_iff] at h ⊢
  simp only [inClass, mappedToNothing, mappedToSpace, List.any_cons, List.any_nil, Bool.or_false, Bool.or_eq_true, Bool.and_eq_true, decide_eq_true_eq] at h ⊢
  omega

/-- C36: the mapping step does to every string exactly what RFC 4518 section 2.2 says, character by character. -/
theorem c36_rfc4518_map (s t : Str) : mapCharacters s = t ↔ Mapped s t := by
  have hc : ∀ c s, mapCharacters (c :: s) = if inClass mapNothing c then mapCharacters s else (if inClass mapSpace c then ' ' else c) :: mapCharacters s := by
    intro c s
    simp only [mapCharacters, List.filter_cons]
    cases inClass mapNothing c <;> simp
  constructor
  · rintro rfl
    induction s with
    | nil => exact .nil
    | cons c s ih =>
      rw [hc]
      by_cases h1 : inClass mapNothing c = true
      · rw [if_pos h1]; exact .nothing _ _ _ ((listed_nothing c).1 h1) ih
      · rw [if_neg h1]
        by_cases h2 : inClass mapSpace c = true
        · rw [if_pos h2]; exact .space _ _ _ ((listed_space c).1 h2) ih
        · rw [if_neg h2]; exact .kept _ _ _ (fun h => h1 ((listed_nothing c).2 h)) (fun h => h2 ((listed_space c).2 h)) ih
  · intro h
    induction h with
    | nil => rfl
    | nothing c s t h1 _ ih => rw [hc, if_pos ((listed_nothing c).2 h1), ih]
    | space c s t h1 _ ih =>
      rw [hc, if_neg (fun h => listed_excl c h1 ((listed_nothing c).1 h)), if_pos ((listed_space c).2 h1), ih]
    | kept c s t h1 h2 _ ih =>
      rw [hc, if_neg (fun h => h1 ((listed_nothing c).1 h)), if_neg (fun h => h2 ((listed_space c).1 h)), ih]

example : Mapped ['a', Char.ofNat 0xA0, Char.ofNat 0x200B, 'b'] ['a', ' ', 'b'] := (c36_rfc4518_map _ _).1 (by decide)

/-- the steps of RFC 4518 that a kind of preparation consists of: transcode, map (with case folding or not), normalise, prohibit, and the handling of insignificant
characters -/
def kindSteps : PrepKind → List PrepMethod
  | .exact => [.transcode, .mapChars, .normalize, .prohibit, .space]
  | .ignore => [.transcode, .mapAll, .normalize, .prohibit, .space]
  | .numeric => [.transcode, .mapChars, .normalize, .prohibit, .numeric]
  | .telephone => [.transcode, .mapAll, .normalize, .prohibit, .telephone]
  | .none => []

/-- C36: each equality rule prepares its values in the way RFC 4517 prescribes for the rule of that name. -/
theorem c36_rules_prepare : ∀ k ∈ prepKinds, ∃ r ∈ equalityRules, r.1 = k.1 ∧ r.2 = kindSteps k.2 ∧ ∀ r' ∈ equalityRules, r'.1 = k.1 → r' = r := by
  decide

/-! ### C37: prohibited characters -/

namespace PrepP

/-- the ranges of the specification -/
abbrev specTable : List (Nat × Nat) := Rfc3454.a1 ++ Rfc3454.c3 ++ Rfc3454.c4 ++ Rfc3454.c5 ++ Rfc3454.c8 ++ Rfc3454.fffd

def covered (t : List (Nat × Nat)) (q : Nat × Nat) : Bool := t.any (fun r => Nat.ble r.1 q.1 && Nat.ble q.2 r.2)

theorem covered_iff (t : List (Nat × Nat)) (q : Nat × Nat) : covered t q = true ↔ ∃ r ∈ t, r.1 ≤ q.1 ∧ q.2 ≤ r.2 := by
  simp [covered, List.any_eq_true]

theorem sound_check : prohibitedTable.all (fun q => (Nat.beq q.1 0x46 && Nat.beq q.2 0x46) ||
    (covered specTable q && (Nat.blt q.2 0x350 || Nat.blt 0x35F q.1))) = true := by decide +kernel

theorem complete_check : specTable.all (fun r => (Nat.beq r.1 0x350 && Nat.beq r.2 0x35F) || covered prohibitedTable r) = true := by
  decide +kernel

theorem table_sound (q : Nat × Nat) (hq : q ∈ prohibitedTable) : q = (0x46, 0x46) ∨
    ((∃ r ∈ specTable, r.1 ≤ q.1 ∧ q.2 ≤ r.2) ∧ (q.2 < 0x350 ∨ 0x35F < q.1)) := by
  have h := List.all_eq_true.1 sound_check q hq
  simp only [Bool.or_eq_true, Bool.and_eq_true, covered_iff, Nat.beq_eq, Nat.blt_eq] at h
  rcases h with ⟨h1, h2⟩ | h
  · left; exact Prod.ext h1 h2
  · exact Or.inr h

theorem table_complete (r : Nat × Nat) (hr : r ∈ specTable) : r = (0x350, 0x35F) ∨ ∃ q ∈ prohibitedTable, q.1 ≤ r.1 ∧ r.2 ≤ q.2 := by
  have h := List.all_eq_true.1 complete_check r hr
  simp only [Bool.or_eq_true, Bool.and_eq_true, covered_iff, Nat.beq_eq] at h
  rcases h with ⟨h1, h2⟩ | h
  · left; exact Prod.ext h1 h2
  · exact Or.inr h

theorem table_iff (c : Char) : inClass prohibitedTable c = true ↔
    (rfcProhibited c ∧ ¬ (0x350 ≤ c.toNat ∧ c.toNat ≤ 0x35F)) ∨ c = 'F' := by
  simp only [inClass, List.any_eq_true, Bool.and_eq_true, decide_eq_true_eq]
  constructor
  · rintro ⟨q, hq, h1, h2⟩
    rcases table_sound q hq with rfl | ⟨⟨r, hr, h3, h4⟩, h5⟩
    · right
      have hn : c.toNat = 70 := by simp at h1 h2; omega
      apply Char.ext; apply UInt32.toNat_inj.1; exact hn
    · left
      exact ⟨⟨r, hr, by omega, by omega⟩, by omega⟩
  · rintro (⟨⟨r, hr, h1, h2⟩, h3⟩ | rfl)
    · rcases table_complete r hr with rfl | ⟨q, hq, h4, h5⟩
      · exact absurd ⟨h1, h2⟩ h3
      · exact ⟨q, hq, by omega, by omega⟩
    · exact ⟨(0x46, 0x46), by decide +kernel, by decide, by decide⟩

end PrepP

/-- **C37, exactly what the code does.** `Prohibit` raises exactly when the *first* character is prohibited by the RFC and is not one of
U+0350 to U+035F, which the table forgets, or is the capital letter F, which a slip in the table adds. -/
theorem c37_exact (s : Str) : Laurelin.prohibit s = .error .prohibited ↔
    ∃ c t, s = c :: t ∧ ((rfcProhibited c ∧ ¬ (0x350 ≤ c.toNat ∧ c.toNat ≤ 0x35F)) ∨ c = 'F') := by
  cases s with
  | nil => simp [Laurelin.prohibit]
  | cons c t =>
    simp only [Laurelin.prohibit]
    constructor
    · intro h
      refine ⟨c, t, rfl, ?_⟩
      rw [← PrepP.table_iff]
      split at h
      · assumption
      · simp at h
    · rintro ⟨c', t', he, hc⟩
      simp at he; obtain ⟨rfl, rfl⟩ := he
      rw [if_pos ((PrepP.table_iff c).2 hc)]

/-- **C37, the part that holds.** A prohibited character at the start is rejected, the forgotten range excepted; and a rejected value
contains a prohibited character or begins with F. Otherwise the value is passed on unchanged. -/
theorem c37_partial (s : Str) :
    (∀ c t, s = c :: t → rfcProhibited c → ¬ (0x350 ≤ c.toNat ∧ c.toNat ≤ 0x35F) → Laurelin.prohibit s = .error .prohibited) ∧
    ((∀ c ∈ s, ¬ rfcProhibited c) → s.head? ≠ some 'F' → Laurelin.prohibit s = .ok s) := by
  constructor
  · intro c t hs hc hn
    exact (c37_exact s).2 ⟨c, t, hs, Or.inl ⟨hc, hn⟩⟩
  · intro h hf
    cases hp : Laurelin.prohibit s with
    | ok x => rw [PrepP.prohibit_ok s x hp]
    | error e =>
      have he : e = .prohibited := by
        cases s with
        | nil => simp [Laurelin.prohibit] at hp
        | cons c t => simp only [Laurelin.prohibit] at hp; split at hp <;> simp at hp; exact hp.symm
      subst he
      obtain ⟨c, t, rfl, hc | hc⟩ := (c37_exact s).1 hp
      · exact absurd hc.1 (h c (by simp))
      · subst hc; simp at hf

/-- **C37 is false of the code**: after any first character that is not in the table, every prohibited character passes. -/
theorem c37_only_first (c : Char) (t : Str) (h : Laurelin.prohibit [c] = .ok [c]) : Laurelin.prohibit (c :: t) = .ok (c :: t) := by
  simp only [Laurelin.prohibit] at h ⊢
  split at h <;> rename_i hc
  · simp at h
  · simp [hc]

/-- A prohibited character that is accepted, a permitted one that is refused, a prohibited first character that is accepted. -/
theorem c37_counterexamples : (rfcProhibited (Char.ofNat 0xE000) ∧ Laurelin.prohibit ['a', Char.ofNat 0xE000] = .ok ['a', Char.ofNat 0xE000]) ∧
    (¬ rfcProhibited 'F' ∧ Laurelin.prohibit (str "Foo") = .error .prohibited) ∧
    (rfcProhibited (Char.ofNat 0x350) ∧ Laurelin.prohibit [Char.ofNat 0x350] = .ok [Char.ofNat 0x350]) := by
  unfold rfcProhibited
  decide +kernel

/-! ### C38: distinguishedNameMatch -/

namespace PrepP

theorem splitUnesc_ne_nil (c : Char) (e : Bool) (s : Str) : splitUnesc c e s ≠ [] := by
  cases s with
  | nil => simp [splitUnesc]
  | cons x t => simp only [splitUnesc]; split <;> try split
                all_goals simp

theorem set_ne_nil (d : PDict Str Str) (k v : Str) : d.set k v ≠ [] := by
  cases d with
  | nil => simp [PDict.set]
  | cons p d => obtain ⟨a, b⟩ := p; simp only [PDict.set]; split <;> simp

theorem parseAvas_ne_nil (l : List Str) (d r : PDict Str Str) (h : l ≠ [] ∨ d ≠ []) (hr : parseAvas l d = .ok r) : r ≠ [] := by
  induction l generalizing d with
  | nil =>
    simp [parseAvas] at hr h; rwa [← hr]
  | cons s l ih =>
    simp only [parseAvas] at hr
    split at hr
    · simp at hr
    · exact ih _ (Or.inr (set_ne_nil _ _ _)) hr

theorem parseRdns_spec (l : List Str) (r : List (PDict Str Str)) (h : parseRdns l = .ok r) :
    r.length = l.length ∧ ∀ d ∈ r, d ≠ [] := by
  induction l generalizing r with
  | nil => simp [parseRdns] at h; subst h; simp
  | cons s l ih =>
    simp only [parseRdns] at h
    split at h
    · simp at h
    · rename_i d hd
      split at h
      · simp at h
      · rename_i ds hds
        simp at h; subst h
        obtain ⟨h1, h2⟩ := ih ds hds
        refine ⟨by simp [h1], ?_⟩
        intro x hx
        simp at hx
        rcases hx with rfl | hx
        · exact parseAvas_ne_nil _ _ _ (Or.inl (splitUnesc_ne_nil _ _ _)) hd
        · exact h2 x hx

end PrepP

/-- A parsed DN has one RDN per part between unescaped commas, and none is empty (so the rebinding described at
`dnMatchWith` always happens). -/
theorem parseDn_nonempty (s : Str) (r : List (PDict Str Str)) (h : parseDn s = .ok r) :
    r.length = (splitUnesc ',' false s).length ∧ r ≠ [] ∧ ∀ d ∈ r, d ≠ [] := by
  obtain ⟨h1, h2⟩ := PrepP.parseRdns_spec _ _ h
  refine ⟨h1, ?_, h2⟩
  intro he; subst he
  exact PrepP.splitUnesc_ne_nil ',' false s (by simpa using h1.symm)

namespace PrepP

/-- `Pieces` with a character before the text: `e` says that it is a backslash -/
def PE (c : Char) (e : Bool) (s : Str) (ps : List Str) : Prop :=
  s = pyJoin [c] ps ∧ match ps with
  | [] => False
  | p :: rest =>
    (rest ≠ [] → if p = [] then e = false else p.getLast? ≠ some '\\') ∧ (∀ q ∈ rest.dropLast, q.getLast? ≠ some '\\') ∧
    (∀ a b, p = a ++ c :: b → a.getLast? = some '\\' ∨ (a = [] ∧ e = true)) ∧ ∀ q ∈ rest, ∀ a b, q = a ++ c :: b → a.getLast? = some '\\'

theorem pe_false (c : Char) (s : Str) (ps : List Str) : PE c false s ps ↔ Pieces c s ps := by
  unfold PE Pieces
  cases ps with
  | nil => simp
  | cons p rest =>
    cases rest with
    | nil => simp
    | cons q r =>
      have : (p = [] → ¬p.getLast? = some '\\') := by rintro rfl; simp
      simp only [ne_eq, reduceCtorEq, not_false_eq_true, true_and, forall_const, List.dropLast_cons_cons, List.mem_cons, Bool.false_eq_true, and_false, or_false, if_true]
      constructor
      · rintro ⟨h1, h2, h3, h4, h5⟩
        refine ⟨h1, ?_, ?_⟩
        · rintro x (rfl | hx)
          · split at h2
            · rename_i e; exact this e
            · exact h2
          · exact h3 x hx
        · rintro x (rfl | hx)
          · exact h4
          · exact h5 x hx
      · rintro ⟨h1, h2, h3⟩
        refine ⟨h1, ?_, fun x hx => h2 x (.inr hx), fun a b h => h3 p (.inl rfl) a b h, fun x hx => h3 x (.inr hx)⟩
        split
        · trivial
        · exact h2 p (.inl rfl)

theorem pe_split (c : Char) (hc : c ≠ '\\') (e : Bool) (s : Str) : PE c e s (splitUnesc c e s) := by
  induction s generalizing e with
  | nil => simp [splitUnesc, PE, pyJoin]
  | cons x t ih =>
    simp only [splitUnesc]
    split
    · rename_i h
      obtain ⟨rfl, rfl⟩ := h
      have h1 := (pe_false x t _).1 (by have := ih (decide (x = '\\')); rwa [decide_eq_false hc] at this)
      rw [decide_eq_false hc]
      unfold Pieces at h1
      obtain ⟨h1, h2, h3, h4⟩ := h1
      refine ⟨?_, by simp, h3, by simp, h4⟩
      rw [pyJoin_cons _ _ _ h1, ← h2]; rfl
    · rename_i hx
      have h1 := ih (decide (x = '\\'))
      cases hs : splitUnesc c (decide (x = '\\')) t with
      | nil => exact absurd hs (splitUnesc_ne_nil _ _ _)
      | cons h r =>
        rw [hs] at h1
        obtain ⟨h1, h2, h3, h4, h5⟩ := h1
        refine ⟨?_, ?_, h3, ?_, h5⟩
        · cases r with
          | nil => rw [h1]; rfl
          | cons y r => rw [h1]; rfl
        · intro hr
          have h2 := h2 hr
          rw [if_neg (by simp)]
          cases h with
          | nil => simpa using h2
          | cons z h => simpa using h2
        · intro a b hab
          cases a with
          | nil =>
            simp at hab
            refine .inr ⟨rfl, ?_⟩
            have := fun q => hx ⟨hab.1, q⟩
            simpa using this
          | cons y a =>
            simp at hab
            obtain ⟨rfl, hab⟩ := hab
            rcases h4 a b hab with h | ⟨rfl, h⟩
            · refine .inl ?_
              cases a with
              | nil => simp at h
              | cons z a => simpa using h
            · refine .inl ?_
              simpa using h

theorem pe_unique (c : Char) (hc : c ≠ '\\') (e : Bool) (s : Str) (ps : List Str) (h : PE c e s ps) : splitUnesc c e s = ps := by
  induction s generalizing e ps with
  | nil =>
    obtain ⟨h1, h2⟩ := h
    match ps, h2 with
    | [[]], _ => rfl
    | [x :: p], _ => simp [pyJoin] at h1
    | p :: q :: r, _ => simp [pyJoin] at h1
  | cons x t ih =>
    obtain ⟨h1, h2⟩ := h
    cases ps with
    | nil => exact h2.elim
    | cons p rest =>
      obtain ⟨h2, h3, h4, h5⟩ := h2
      simp only [splitUnesc]
      split
      · rename_i hx
        obtain ⟨rfl, rfl⟩ := hx
        cases p with
        | cons y p =>
          have hy : x = y := by cases rest <;> simp [pyJoin] at h1 <;> exact h1.1
          subst hy
          have := h4 [] p rfl
          simp at this
        | nil =>
          cases rest with
          | nil => simp [pyJoin] at h1
          | cons q r =>
            simp [pyJoin] at h1
            rw [decide_eq_false hc, ih false (q :: r)]
            rw [pe_false]
            refine ⟨by simp, h1, h3, h5⟩
      · rename_i hx
        cases p with
        | nil =>
          exfalso
          cases rest with
          | nil => simp [pyJoin] at h1
          | cons q r =>
            simp [pyJoin] at h1
            have h2 := h2 (by simp)
            rw [if_pos rfl] at h2
            exact hx ⟨h1.1, h2⟩
        | cons y p =>
          have hy : x = y ∧ t = pyJoin [c] (p :: rest) := by cases rest <;> simp [pyJoin] at h1 ⊢ <;> exact h1
          obtain ⟨rfl, ht⟩ := hy
          rw [ih (decide (x = '\\')) (p :: rest)]
          refine ⟨ht, ?_, h3, ?_, h5⟩
          · intro hr
            have h2 := h2 hr
            rw [if_neg (by simp)] at h2
            cases p with
            | nil => simpa using h2
            | cons z p => simpa using h2
          · intro a b hab
            rcases h4 (x :: a) b (by simp [hab]) with h | ⟨h, _⟩
            · cases a with
              | nil => refine .inr ⟨rfl, ?_⟩; simpa using h
              | cons z a => refine .inl ?_; simpa using h
            · simp at h

end PrepP

/-- **C38.** A DN is split at exactly the separators that do not follow a backslash. -/
theorem c38_split (c : Char) (hc : c ≠ '\\') (s : Str) (ps : List Str) : splitUnesc c false s = ps ↔ Pieces c s ps := by
  rw [← PrepP.pe_false]
  constructor
  · rintro rfl; exact PrepP.pe_split c hc false s
  · exact PrepP.pe_unique c hc false s ps

namespace PrepP

theorem parseAva_iff (s : Str) (p : Str × Str) : parseAva s = .ok p ↔ s = avaText p ∧ Pieces '=' (avaText p) [p.1, p.2] := by
  obtain ⟨x, y⟩ := p
  have h := c38_split '=' (by decide) s
  constructor
  · intro hp
    unfold parseAva at hp
    split at hp
    · rename_i a v e
      cases hp
      have h1 := (h _).1 e
      have h2 : s = avaText (x, y) := by rw [h1.2.1]; simp [pyJoin, avaText]
      exact ⟨h2, h2 ▸ h1⟩
    · cases hp
  · rintro ⟨h1, h2⟩
    rw [← h1] at h2
    simp [parseAva, (h _).2 h2]

/-- the mapping filled with these pairs in order -/
def fill (d : PDict Str Str) (l : List (Str × Str)) : PDict Str Str := l.foldl (fun d p => d.set p.1 p.2) d

theorem parseAvas_iff (l : List Str) (d r : PDict Str Str) :
    parseAvas l d = .ok r ↔ ∃ ps, l = ps.map avaText ∧ (∀ p ∈ ps, Pieces '=' (avaText p) [p.1, p.2]) ∧ r = fill d ps := by
  induction l generalizing d with
  | nil =>
    simp only [parseAvas]
    constructor
    · intro h; cases h; exact ⟨[], rfl, by simp, rfl⟩
    · rintro ⟨ps, h1, _, rfl⟩
      have : ps = [] := by simpa using h1.symm
      subst this; rfl
  | cons s l ih =>
    simp only [parseAvas]
    constructor
    · intro h
      split at h
      · cases h
      · rename_i a v e
        obtain ⟨e1, e2⟩ := (parseAva_iff s (a, v)).1 e
        obtain ⟨ps, rfl, h2, rfl⟩ := (ih _).1 h
        exact ⟨(a, v) :: ps, by simp [e1], by simpa using ⟨e2, fun a b h => h2 (a, b) h⟩, rfl⟩
    · rintro ⟨ps, h1, h2, rfl⟩
      cases ps with
      | nil => cases h1
      | cons p ps =>
        simp only [List.map_cons, List.cons.injEq] at h1
        rw [(parseAva_iff s p).2 ⟨h1.1, h2 p (by simp)⟩]
        exact (ih _).2 ⟨ps, h1.2, fun q hq => h2 q (by simp [hq]), rfl⟩

theorem parseRdns_iff (l : List Str) (r : List (PDict Str Str)) :
    parseRdns l = .ok r ↔ ∃ rdns : List (List (Str × Str)), l = rdns.map rdnOfAvas ∧
      (∀ rdn ∈ rdns, Pieces '+' (rdnOfAvas rdn) (rdn.map avaText) ∧ ∀ p ∈ rdn, Pieces '=' (avaText p) [p.1, p.2]) ∧ r = rdns.map (fill []) := by
  induction l generalizing r with
  | nil =>
    simp only [parseRdns]
    constructor
    · intro h; cases h; exact ⟨[], rfl, by simp, rfl⟩
    · rintro ⟨ps, h1, _, rfl⟩
      have : ps = [] := by simpa using h1.symm
      subst this; rfl
  | cons s l ih =>
    simp only [parseRdns]
    have hs := c38_split '+' (by decide) s
    constructor
    · intro h
      split at h
      · cases h
      · rename_i d e
        split at h
        · cases h
        · rename_i ds e2
          cases h
          obtain ⟨ps, h1, h2, rfl⟩ := (parseAvas_iff _ _ _).1 e
          obtain ⟨rdns, rfl, h4, rfl⟩ := (ih _).1 e2
          have h5 := (hs _).1 h1
          have h6 : s = rdnOfAvas ps := h5.2.1
          refine ⟨ps :: rdns, by simp [h6], ?_, rfl⟩
          intro x hx
          rcases List.mem_cons.1 hx with rfl | hx
          · exact ⟨h6 ▸ h5, h2⟩
          · exact h4 x hx
    · rintro ⟨rdns, h1, h2, rfl⟩
      cases rdns with
      | nil => cases h1
      | cons x rdns =>
        simp only [List.map_cons, List.cons.injEq] at h1
        obtain ⟨rfl, rfl⟩ := h1
        have h3 := h2 x (by simp)
        rw [(hs _).2 h3.1, (parseAvas_iff _ _ (fill [] x)).2 ⟨x, rfl, h3.2, rfl⟩]
        rw [(ih (rdns.map (fill []))).2 ⟨rdns, rfl, fun q hq => h2 q (by simp [hq]), rfl⟩]
        rfl

end PrepP

/-- **C38.** A DN is read as its RDNs, each the mapping of its attribute-value pairs; it is refused exactly when some part has no, or more than one, unescaped `=`. -/
theorem c38_read (s : Str) (r : List (PDict Str Str)) :
    parseDn s = .ok r ↔ ∃ rdns, DnParts s rdns ∧ r = rdns.map (fun rdn => rdn.foldl (fun (d : PDict Str Str) p => d.set p.1 p.2) []) := by
  unfold parseDn
  rw [PrepP.parseRdns_iff]
  constructor
  · rintro ⟨rdns, h1, h2, h3⟩
    exact ⟨rdns, ⟨(c38_split _ (by decide) _ _).1 h1, h2⟩, h3⟩
  · rintro ⟨rdns, ⟨h1, h2⟩, h3⟩
    exact ⟨rdns, (c38_split _ (by decide) _ _).2 h1, h2, h3⟩

example : DnParts (str "cn=a+sn=b\\,c,dc=d") [[(str "cn", str "a"), (str "sn", str "b\\,c")], [(str "dc", str "d")]] := by
  refine ⟨(c38_split _ (by decide) _ _).1 (by decide), ?_⟩
  intro rdn h
  simp only [List.mem_cons, List.not_mem_nil, or_false] at h
  rcases h with rfl | rfl
  · refine ⟨(c38_split _ (by decide) _ _).1 (by decide), ?_⟩
    intro p h
    simp only [List.mem_cons, List.not_mem_nil, or_false] at h
    rcases h with rfl | rfl <;> exact (c38_split _ (by decide) _ _).1 (by decide)
  · refine ⟨(c38_split _ (by decide) _ _).1 (by decide), ?_⟩
    intro p h
    simp only [List.mem_cons, List.not_mem_nil, or_false] at h
    rcases h with rfl; exact (c38_split _ (by decide) _ _).1 (by decide)

/-- **C38, the part that holds.** Two DNs with different numbers of RDNs do not match. -/
theorem c38_lengths_partial (a b : Str) (pa pb : List Str) (hpa : Pieces ',' a pa) (hpb : Pieces ',' b pb) (hl : pa.length ≠ pb.length) (r : Bool)
    (h : dnMatch a b = .ok r) : r = false := by
  rw [← (c38_split ',' (by decide) a pa).2 hpa, ← (c38_split ',' (by decide) b pb).2 hpb] at hl
  simp only [dnMatch, dnMatchWith] at h
  cases ha : parseDn a with
  | error e => simp [ha] at h
  | ok x =>
    cases hb : parseDn b with
    | error e => simp [ha, hb] at h
    | ok y =>
      have h1 := (parseDn_nonempty a x ha).1
      have h2 := (parseDn_nonempty b y hb).1
      simp only [ha, hb, h1, h2, ne_eq, hl, not_false_eq_true, ite_true] at h
      simpa using h.symm

/-- **C38 is false of the code**: `distinguishedNameMatch` never says that two DNs match, not even a DN and itself. -/
theorem c38_never_matches (a b : Str) : dnMatch a b ≠ .ok true := by
  simp only [dnMatch, dnMatchWith]
  cases ha : parseDn a with
  | error e => simp
  | ok x =>
    cases hb : parseDn b with
    | error e => simp
    | ok y =>
      obtain ⟨_, hx, hxd⟩ := parseDn_nonempty a x ha
      simp only
      split
      · simp
      · rename_i hl
        cases x with
        | nil => exact absurd rfl hx
        | cons d x =>
          cases y with
          | nil => simp at hl
          | cons d' y =>
            have hd := hxd d (by simp)
            cases d with
            | nil => exact absurd rfl hd
            | cons p d =>
              obtain ⟨k, v⟩ := p
              simp only [rdnLoop, typeMatchOfCode]
              cases PDict.get? d' k <;> simp

/-- **C38 would stay false** if attribute types had a working `match`: DNs of two or more RDNs never match, whatever it answers,
because the loop overwrites the lists it runs over. -/
theorem c38_multi_rdn (tm : Str → Str → Str → Except Err Bool) (a b : Str) (pa : List Str) (hpieces : Pieces ',' a pa) (ha : 2 ≤ pa.length) :
    dnMatchWith tm a b ≠ .ok true := by
  rw [← (c38_split ',' (by decide) a pa).2 hpieces] at ha
  simp only [dnMatchWith]
  cases hpa : parseDn a with
  | error e => simp
  | ok x =>
    cases hb : parseDn b with
    | error e => simp
    | ok y =>
      obtain ⟨hlen, hx, hxd⟩ := parseDn_nonempty a x hpa
      simp only
      split
      · simp
      · rename_i hl
        match x, y, hlen, hl with
        | [], _, _, _ => exact absurd rfl hx
        | [d], _, hlen, _ => simp at hlen; omega
        | _ :: _ :: _, [], _, hl => simp at hl
        | d :: d2 :: x, d' :: y, _, _ =>
          simp only [List.isEmpty_cons]
          cases rdnLoop tm d' d (some none) <;> simp

example : dnMatch (str "cn=a,dc=b") (str "cn=a,dc=b") = .ok false := by decide
example : dnMatch (str "cn=a") (str "cn=a,dc=b") = .ok false := by decide
example : dnMatch (str "cn") (str "cn=a") = .error .valueError := by decide
example : parseDn (str "cn=a+sn=b\\,c,dc=d") = .ok [[(str "cn", str "a"), (str "sn", str "b\\,c")], [(str "dc", str "d")]] := by decide
example : dnMatchWith (fun _ v w => .ok (v == w)) (str "cn=a+sn=b") (str "sn=b+cn=a") = .ok true := by decide

end Laurelin.Props
