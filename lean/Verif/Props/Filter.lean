import Verif.Lemmas.FilterLogic
/-! Properties C16–C22 and C60: search filters. -/
namespace Laurelin.Props
open Laurelin Laurelin.Spec

/-! ### C16, C17: unified syntax contains the other two -/

/-- **C16.** Whatever parses as a standard filter parses, in unified syntax, to the same filter. -/
theorem c16_standard_in_unified (s : Str) (f : Filter) (h : parseStandard s = .ok f) : parseUnified s = .ok f := by
  rw [parseUnified_iff]
  exact ⟨[f], .orOne (fs := [f]) (.andOne (.leaf ((parseStandard_iff s f).mp h))), rfl⟩

example : parseStandard (str "(&(NOT=1)(!(cn=a*b)))") =
    .ok (.and [.equality (str "NOT") (str "1"), .not (.substrings (str "cn") [.initial (str "a"), .final (str "b")])]) := by rfl

/-- the leaves of the logic syntax can be enlarged -/
theorem logic_mono {p q : Str → Filter → Prop} (hpq : ∀ s f, p s f → q s f) {lv : LogicLevel} {s : Str} {fs : List Filter}
    (h : Logic p lv s fs) : Logic q lv s fs := by
  induction h with
  | leaf h => exact .leaf (hpq _ _ h)
  | not hb _ ih => exact .not hb ih
  | paren ha hb _ ih => exact .paren ha hb ih
  | andOne _ ih => exact .andOne ih
  | andCons _ ha hb _ ih1 ih2 => exact .andCons ih1 ha hb ih2
  | orOne _ ih => exact .orOne ih
  | orCons _ ha hb _ ih1 ih2 => exact .orCons ih1 ha hb ih2

/-- **C17.** Whatever parses in simple syntax parses, in unified syntax, to the same filter. -/
theorem c17_simple_in_unified (s : Str) (f : Filter) (h : parseSimple s = .ok f) : parseUnified s = .ok f := by
  rw [parseUnified_iff]
  obtain ⟨fs, hl, hf⟩ := (parseSimple_iff s f).mp h
  refine ⟨fs, logic_mono ?_ hl, hf⟩
  rintro s f ⟨t, ht, rfl⟩
  exact .comparison ht

example : parseSimple (str "NOT (cn=a) AND ((NOTE>=1) OR( sn=* ))") = .error .ldapError := by rfl
example : parseSimple (str "NOT (cn=a) AND ((NOTE>=1) OR(sn=*) )") =
    .ok (.and [.not (.equality (str "cn") (str "a")), .or [.greaterOrEqual (str "NOTE") (str "1"), .present (str "sn")]]) := by rfl

/-- **C16/C17, exact languages.** The three parsers accept exactly the texts their grammars describe, with the filter those describe
(`StdText`, `LogicText` are relations that do not mention the parsers); everything else raises `LDAPError`. -/
theorem c16_languages (s : Str) (f : Filter) :
    (parseStandard s = .ok f ↔ StdText s f) ∧ (parseSimple s = .ok f ↔ LogicText SimpleLeaf s f) ∧
      (parseUnified s = .ok f ↔ LogicText StdText s f) :=
  ⟨parseStandard_iff s f, parseSimple_iff s f, parseUnified_iff s f⟩

theorem whole_err (p : Rec Filter) (s : Str) : (∃ f, whole p s = .ok f) ∨ whole p s = .error .ldapError := by
  unfold whole; split
  · exact .inl ⟨_, rfl⟩
  · exact .inr rfl

theorem c16_only_ldap_error (s : Str) :
    ((∃ f, parseStandard s = .ok f) ∨ parseStandard s = .error .ldapError) ∧
    ((∃ f, parseSimple s = .ok f) ∨ parseSimple s = .error .ldapError) ∧
    ((∃ f, parseUnified s = .ok f) ∨ parseUnified s = .error .ldapError) :=
  ⟨whole_err _ _, whole_err _ _, whole_err _ _⟩

/-- a standard filter text has only one reading -/
theorem c16_unambiguous (s : Str) (f g : Filter) (h1 : LogicText StdText s f) (h2 : LogicText StdText s g) : f = g := by
  have a := (parseUnified_iff s f).mpr h1
  have b := (parseUnified_iff s g).mpr h2
  rw [a] at b
  exact Except.ok.inj b

/-! ### C18, C60: printing -/

theorem printSet_eq (l : List Filter) : printFilter.printSet l = (l.map printFilter).flatten := by
  induction l with
  | nil => rfl
  | cons f l ih => simp [printFilter.printSet, ih]

theorem join_star (x : Str) (anys : List Str) (f : Str) :
    join (str "*") (x :: (anys ++ [f])) = x ++ str "*" ++ (anys.map (· ++ str "*")).flatten ++ f := by
  induction anys generalizing x with
  | nil => simp [join]
  | cons a anys ih =>
    simp only [List.cons_append, join]
    rw [ih]
    simp

/-- the substrings components read from a text -/
def subsOf (i : Str) (anys : List Str) (f : Str) : List Sub :=
  (if i = [] then [] else [.initial i]) ++ anys.map .any ++ (if f = [] then [] else [.final f])

theorem printSubs_eq (i f : Str) (anys : List Str) (hne : ¬ (i = [] ∧ anys = [] ∧ f = []))
    (hlast : (subsOf i anys f).getLast? ≠ some (.any [])) :
    printSubs (subsOf i anys f) = i ++ str "*" ++ (anys.map (· ++ str "*")).flatten ++ f := by
  have htext : ∀ l : List Str, (l.map Sub.any).map Sub.text = l := by
    intro l; induction l with
    | nil => rfl
    | cons _ _ ih => simp [Sub.text, ih]
  have hstrs : subsLead (subsOf i anys f) ++ (subsOf i anys f).map Sub.text = (i :: anys) ++ (if f = [] then [] else [f]) := by
    by_cases hi : i = []
    · subst hi
      simp only [subsOf, if_true, List.nil_append]
      cases anys with
      | nil =>
        by_cases hf : f = []
        · exact absurd ⟨rfl, rfl, hf⟩ hne
        · simp [hf, Sub.text, subsLead]
      | cons a anys =>
        simp only [List.map_cons, List.cons_append, List.map_append, htext, Sub.text]
        by_cases hf : f = [] <;> simp [hf, Sub.text, subsLead]
    · simp only [subsOf, if_neg hi, List.cons_append, List.nil_append, List.map_cons, List.map_append, htext, Sub.text]
      by_cases hf : f = [] <;> simp [hf, Sub.text, subsLead]
  unfold printSubs
  simp only []
  rw [hstrs]
  by_cases hf : f = []
  · subst hf
    have hlf : endsFinal (subsOf i anys []) = false := by
      simp only [endsFinal, subsOf, if_true, List.append_nil]
      rcases List.eq_nil_or_concat anys with rfl | ⟨as, a, rfl⟩
      · by_cases hi : i = [] <;> simp [hi]
      · simp
    have hl : ((i :: anys) ++ (if ([] : Str) = [] then [] else [[]])).getLast? ≠ some [] := by
      simp only [if_true, List.append_nil]
      rcases List.eq_nil_or_concat anys with rfl | ⟨as, a, rfl⟩
      · simp at hne ⊢; exact hne
      · simp [subsOf] at hlast
        rw [List.concat_eq_append, ← List.cons_append, List.getLast?_concat]
        simpa using hlast
    rw [hlf, if_pos ⟨rfl, hl⟩]
    have := join_star i anys []
    simpa using this
  · have hlf : endsFinal (subsOf i anys f) = true := by
      simp [endsFinal, subsOf, hf]
    rw [hlf]
    simp only [if_neg hf, Bool.true_eq_false, false_and, if_false]
    have := join_star i anys f
    simpa using this

theorem subsText_iff (subs : List Sub) : SubsText subs ↔ ∃ i anys f, subs = subsOf i anys f ∧ ¬ (i = [] ∧ anys = [] ∧ f = []) ∧
    subs.getLast? ≠ some (.any []) ∧ ValueText i ∧ (∀ x ∈ anys, ValueText x) ∧ ValueText f := by
  constructor
  · rintro ⟨i, anys, f, rfl, hne, hl, hi, ha, hf⟩
    refine ⟨i.getD [], anys, f.getD [], ?_, ?_, hl, ?_, ha, ?_⟩
    · cases i with
      | none => cases f with
        | none => simp [subsOf]
        | some f => simp [subsOf, (hf f rfl).1]
      | some i => cases f with
        | none => simp [subsOf, (hi i rfl).1]
        | some f => simp [subsOf, (hi i rfl).1, (hf f rfl).1]
    · rintro ⟨h1, rfl, h3⟩
      cases i with
      | none => cases f with
        | none => simp at hne
        | some f => exact (hf f rfl).1 h3
      | some i => exact (hi i rfl).1 h1
    · cases i with
      | none => exact .nil
      | some i => exact (hi i rfl).2
    · cases f with
      | none => exact .nil
      | some f => exact (hf f rfl).2
  · rintro ⟨i, anys, f, rfl, hne, hl, hi, ha, hf⟩
    refine ⟨if i = [] then none else some i, anys, if f = [] then none else some f, ?_, ?_, hl, ?_, ha, ?_⟩
    · by_cases h1 : i = [] <;> by_cases h2 : f = [] <;> simp [subsOf, h1, h2]
    · intro h
      apply hne
      by_cases h1 : i = [] <;> by_cases h2 : f = [] <;> simp [subsOf, h1, h2] at h ⊢
      exact h
    · intro x hx
      by_cases h1 : i = [] <;> simp [h1] at hx
      subst hx; exact ⟨h1, hi⟩
    · intro x hx
      by_cases h1 : f = [] <;> simp [h1] at hx
      subst hx; exact ⟨h1, hf⟩

theorem std_many (l : List Filter) (h : ∀ f ∈ l, StdText (printFilter f) f) : Std .many (l.map printFilter).flatten l := by
  induction l with
  | nil => exact .nil
  | cons f l ih =>
    simp only [List.map_cons, List.flatten_cons]
    exact .cons (h f (by simp)) (ih (fun g hg => h g (List.mem_cons_of_mem _ hg)))

theorem print_std (f : Filter) (h : WellFormed f) : StdText (printFilter f) f := by
  induction h with
  | and hne _ ih => rw [printFilter, printSet_eq]; exact .and hne (std_many _ ih)
  | or hne _ ih => rw [printFilter, printSet_eq]; exact .or hne (std_many _ ih)
  | not _ ih => exact .not ih
  | @equality a v ha hv => simpa [StdText, printFilter] using Std.comparison (.equality ha hv)
  | @greaterOrEqual a v ha hv => simpa [StdText, printFilter] using Std.comparison (.greaterOrEqual ha hv)
  | @lessOrEqual a v ha hv => simpa [StdText, printFilter] using Std.comparison (.lessOrEqual ha hv)
  | @approx a v ha hv => simpa [StdText, printFilter] using Std.comparison (.approx ha hv)
  | @present a ha => simpa [StdText, printFilter] using Std.comparison (.present ha)
  | @substrings a subs ha hs =>
    obtain ⟨i, anys, f, rfl, hne, hl, hi, han, hf⟩ := (subsText_iff subs).mp hs
    have := Std.comparison (.substrings ha hi han hf hne)
    simp only [printFilter, printSubs_eq i f anys hne hl]
    simpa [StdText, subsOf] using this
  | @extensible rule attr v dn hor ha hr hdn hv =>
    have := Std.comparison (.extensible hor ha hr hdn hv)
    have h1 : printOpt [] attr = attr.getD [] := by cases attr <;> rfl
    have h2 : printOpt (str ":") rule = (rule.map (':' :: ·)).getD [] := by cases rule <;> rfl
    simpa [StdText, printFilter, h1, h2] using this

/-- **C18.** Printing any well-formed filter and parsing the text – as a standard filter or in unified syntax – gives the filter back. -/
theorem c18_round_trip (f : Filter) (h : WellFormed f) :
    parseStandard (printFilter f) = .ok f ∧ parseUnified (printFilter f) = .ok f := by
  have := (parseStandard_iff _ _).mpr (print_std f h)
  exact ⟨this, c16_standard_in_unified _ _ this⟩

/-- printing is injective on well-formed filters -/
theorem c18_print_injective (f g : Filter) (hf : WellFormed f) (hg : WellFormed g) (h : printFilter f = printFilter g) : f = g := by
  have a := (c18_round_trip f hf).1
  have b := (c18_round_trip g hg).1
  rw [h, b] at a
  exact (Except.ok.inj a).symm

theorem attr_cn : AttrText (str "cn") :=
  ⟨str "cn", [], rfl, .inl ⟨'c', ['n'], rfl, by simp [isLetter], by simp [isNameChar, isLetter]⟩, by simp⟩

example : WellFormed (.and [.not (.equality (str "cn") (str "a\\28")),
    .substrings (str "cn") [.initial (str "x"), .any [], .final (str "y")]]) := by
  refine .and (by simp) ?_
  intro f hf
  simp at hf
  rcases hf with rfl | rfl
  · refine .not (.equality attr_cn (.plain (by simp [isPlain]) (.escaped ?_ ?_ .nil))) <;> simp [isHexDig, isDig]
  · refine .substrings attr_cn ⟨some (str "x"), [[]], some (str "y"), rfl, by simp, by simp, ?_, ?_, ?_⟩
    · intro x hx; simp at hx; subst hx; exact ⟨by simp, .plain (by simp [isPlain]) .nil⟩
    · intro x hx; simp at hx; subst hx; exact .nil
    · intro x hx; simp at hx; subst hx; exact ⟨by simp, .plain (by simp [isPlain]) .nil⟩

/-- **C18, limit.** Each excluded shape really fails: an `any` component that is empty and last, a rule named `dn…`. -/
theorem c18_excluded :
    parseStandard (printFilter (.substrings (str "cn") [.initial (str "x"), .any []])) =
        .ok (.substrings (str "cn") [.initial (str "x")]) ∧
    parseStandard (printFilter (.substrings (str "cn") [.any []])) = .ok (.present (str "cn")) ∧
    parseStandard (printFilter (.extensible (some (str "dnMatch")) (some (str "cn")) (str "x") false)) = .error .ldapError := by
  refine ⟨rfl, rfl, rfl⟩

/-- the filter holds a substrings comparison ending in an empty `any` -/
inductive TrailingAny : Filter → Prop
  | here {a subs} : subs.getLast? = some (.any []) → TrailingAny (.substrings a subs)
  | and {l f} : f ∈ l → TrailingAny f → TrailingAny (.and l)
  | or {l f} : f ∈ l → TrailingAny f → TrailingAny (.or l)
  | not {f} : TrailingAny f → TrailingAny (.not f)

theorem std_print {lv : ListLevel} {s : Str} {fs : List Filter} (h : Std lv s fs) :
    (∃ f ∈ fs, TrailingAny f) ∨ ((∀ f ∈ fs, WellFormed f) ∧ (fs.map printFilter).flatten = s) := by
  induction h with
  | @comparison t f ht =>
    cases ht with
    | equality ha hv => right; exact ⟨by simpa using .equality ha hv, by simp [printFilter]⟩
    | approx ha hv => right; exact ⟨by simpa using .approx ha hv, by simp [printFilter]⟩
    | greaterOrEqual ha hv => right; exact ⟨by simpa using .greaterOrEqual ha hv, by simp [printFilter]⟩
    | lessOrEqual ha hv => right; exact ⟨by simpa using .lessOrEqual ha hv, by simp [printFilter]⟩
    | present ha => right; exact ⟨by simpa using .present ha, by simp [printFilter]⟩
    | @substrings a i f anys ha hi han hf hne =>
      by_cases hl : (subsOf i anys f).getLast? = some (.any [])
      · left; exact ⟨_, List.mem_singleton.mpr rfl, .here hl⟩
      · right
        refine ⟨?_, ?_⟩
        · intro g hg
          simp only [List.mem_singleton] at hg
          subst hg
          exact .substrings ha ((subsText_iff _).mpr ⟨i, anys, f, rfl, hne, hl, hi, han, hf⟩)
        · have := printSubs_eq i f anys hne hl
          simp only [subsOf] at this
          simp only [List.map_cons, List.map_nil, List.flatten_cons, List.flatten_nil, printFilter, this]
          simp
    | @extensible rule attr v dn hor ha hr hdn hv =>
      right
      refine ⟨by simpa using .extensible hor ha hr hdn hv, ?_⟩
      have h1 : printOpt [] attr = attr.getD [] := by cases attr <;> rfl
      have h2 : printOpt (str ":") rule = (rule.map (':' :: ·)).getD [] := by cases rule <;> rfl
      simp [printFilter, h1, h2]
  | @and t fs hne _ ih =>
    rcases ih with ⟨f, hf, ht⟩ | ⟨h1, h2⟩
    · left; exact ⟨_, by simp, .and hf ht⟩
    · right; exact ⟨by simpa using .and hne h1, by simp [printFilter, printSet_eq, h2]⟩
  | @or t fs hne _ ih =>
    rcases ih with ⟨f, hf, ht⟩ | ⟨h1, h2⟩
    · left; exact ⟨_, by simp, .or hf ht⟩
    · right; exact ⟨by simpa using .or hne h1, by simp [printFilter, printSet_eq, h2]⟩
  | @not t f _ ih =>
    rcases ih with ⟨g, hg, ht⟩ | ⟨h1, h2⟩
    · simp only [List.mem_singleton] at hg; subst hg
      left; exact ⟨_, by simp, .not ht⟩
    · right
      refine ⟨by simpa using .not (h1 f (by simp)), ?_⟩
      simp at h2
      simp [printFilter, h2]
  | nil => right; simp
  | @cons t u f fs _ _ ih1 ih2 =>
    rcases ih1 with ⟨g, hg, ht⟩ | ⟨h1, h2⟩
    · simp only [List.mem_singleton] at hg; subst hg
      left; exact ⟨_, by simp, ht⟩
    · rcases ih2 with ⟨g, hg, ht⟩ | ⟨h3, h4⟩
      · left; exact ⟨g, List.mem_cons_of_mem _ hg, ht⟩
      · right
        refine ⟨?_, ?_⟩
        · intro g hg
          rcases List.mem_cons.mp hg with rfl | hg
          · exact h1 _ (by simp)
          · exact h3 g hg
        · simp at h2
          simp [h2, h4]

/-- **C60.** Parsing a standard filter and printing it gives the very same text, and the parsed filter is well formed, unless it holds a
substrings comparison ending in an empty `any`. -/
theorem c60_parse_print (s : Str) (f : Filter) (h : parseStandard s = .ok f) (ht : ¬ TrailingAny f) :
    printFilter f = s ∧ WellFormed f := by
  rcases std_print ((parseStandard_iff s f).mp h) with ⟨g, hg, hg'⟩ | ⟨h1, h2⟩
  · simp only [List.mem_singleton] at hg; subst hg; exact absurd hg' ht
  · exact ⟨by simpa using h2, h1 f (by simp)⟩

/-- the exception is real: the trailing `*` is lost -/
theorem c60_trailing_any : ∃ f, parseStandard (str "(cn=a**)") = .ok f ∧ printFilter f = str "(cn=a*)" := ⟨_, rfl, rfl⟩

/-! ### C19, C20: escaping -/

def special : List Char := ['(', ')', '&', '|', '!', '=', '<', '>', '~', '*', '/']

theorem replaceChar_flatMap {α} (l : List α) (g : α → Str) (c : Char) (rep : Str) :
    replaceChar (l.flatMap g) c rep = l.flatMap (fun x => replaceChar (g x) c rep) := by
  simp [replaceChar, List.flatMap_assoc]

theorem foldl_flatMap {α} (m : List (Char × Str)) (l : List α) (g : α → Str) :
    m.foldl (fun t e => replaceChar t e.1 e.2) (l.flatMap g) = l.flatMap (fun x => m.foldl (fun t e => replaceChar t e.1 e.2) (g x)) := by
  induction m generalizing g with
  | nil => rfl
  | cons e m ih => simp only [List.foldl_cons, replaceChar_flatMap]; exact ih _

theorem escape_flatMap (v : Str) : escape v = v.flatMap (fun c => escape [c]) := by
  have := foldl_flatMap escapeMap v (fun c => [c])
  simpa [escape] using this

theorem escape_plain (c : Char) (h : c ∉ special) : escape [c] = [c] := by
  simp [special] at h
  simp [escape, escapeMap, replaceChar, h]

theorem escape_special (c : Char) (h : c ∈ special) : ∃ h1 h2, escape [c] = ['\\', h1, h2] ∧ isHexDig h1 ∧ isHexDig h2 ∧
    Char.ofNat (16 * hexVal h1 + hexVal h2) = c := by
  simp [special] at h
  rcases h with rfl | rfl | rfl | rfl | rfl | rfl | rfl | rfl | rfl | rfl | rfl
  · exact ⟨'2', '8', by decide, by decide, by decide, by decide⟩
  · exact ⟨'2', '9', by decide, by decide, by decide, by decide⟩
  · exact ⟨'2', '6', by decide, by decide, by decide, by decide⟩
  · exact ⟨'7', 'c', by decide, by decide, by decide, by decide⟩
  · exact ⟨'2', '1', by decide, by decide, by decide, by decide⟩
  · exact ⟨'3', 'd', by decide, by decide, by decide, by decide⟩
  · exact ⟨'3', 'c', by decide, by decide, by decide, by decide⟩
  · exact ⟨'3', 'e', by decide, by decide, by decide, by decide⟩
  · exact ⟨'7', 'e', by decide, by decide, by decide, by decide⟩
  · exact ⟨'2', 'a', by decide, by decide, by decide, by decide⟩
  · exact ⟨'2', 'f', by decide, by decide, by decide, by decide⟩

theorem escape_cons (c : Char) (v : Str) : escape (c :: v) = escape [c] ++ escape v := by
  rw [escape_flatMap (c :: v), escape_flatMap v]; rfl

theorem escape_nil : escape [] = [] := rfl

/-- no special character is left -/
theorem escape_clean (v : Str) (c : Char) (hc : c ∈ special) : c ∉ escape v := by
  induction v with
  | nil => simp [escape_nil]
  | cons x v ih =>
    rw [escape_cons]
    intro h
    rcases List.mem_append.mp h with h | h
    · by_cases hx : x ∈ special
      · obtain ⟨h1, h2, he, a, b, _⟩ := escape_special x hx
        rw [he] at h
        simp at h
        have hh : ∀ d, isHexDig d → d ∉ special := by
          intro d hd hm
          simp [special] at hm
          rcases hm with rfl | rfl | rfl | rfl | rfl | rfl | rfl | rfl | rfl | rfl | rfl <;> exact absurd hd (by decide)
        rcases h with rfl | rfl | rfl
        · revert hc; decide
        · exact hh _ a hc
        · exact hh _ b hc
      · rw [escape_plain x hx] at h
        simp at h
        subst h; exact hx hc
    · exact ih h

/-- for values without NUL and backslash the escaped form is a value text -/
theorem escape_valueText (v : Str) (h : ∀ c ∈ v, c ≠ Char.ofNat 0 ∧ c ≠ '\\') : ValueText (escape v) := by
  induction v with
  | nil => rw [escape_nil]; exact ValueText.nil
  | cons x v ih =>
    rw [escape_cons]
    have ih := ih (fun c hc => h c (List.mem_cons_of_mem _ hc))
    generalize escape v = w at ih ⊢
    by_cases hx : x ∈ special
    · obtain ⟨h1, h2, he, a, b, _⟩ := escape_special x hx
      rw [he]; exact ValueText.escaped a b ih
    · rw [escape_plain x hx]
      show ValueText (x :: w)
      refine ValueText.plain ?_ ih
      simp [special] at hx
      exact ⟨(h x (by simp)).1, hx.1, hx.2.1, by simp [hx], (h x (by simp)).2⟩

theorem stdText_close (t : Str) (f : Filter) (h : StdText t f) : ∃ u, t = u ++ [')'] := by
  cases h with
  | @comparison t _ _ => exact ⟨str "(" ++ t, rfl⟩
  | @and t _ _ _ => exact ⟨str "(&" ++ t, rfl⟩
  | @or t _ _ _ => exact ⟨str "(|" ++ t, rfl⟩
  | @not t _ _ => exact ⟨str "(!" ++ t, rfl⟩

/-- an unparenthesised text in parentheses can only be read as a leaf -/
theorem logic_only_leaf {leaf : Str → Filter → Prop} (hclose : ∀ t f, leaf t f → ∃ u, t = u ++ [')'])
    (hopen : ∀ t f, leaf t f → ∃ u, t = '(' :: u)
    (w : Str) (f : Filter) (hw : ')' ∉ w) (hfirst : ∀ r, firstReal (w ++ r) ≠ some '(') (h : LogicText leaf (str "(" ++ w ++ str ")") f) :
    leaf (str "(" ++ w ++ str ")") f := by
  have hend : ∀ {lv : LogicLevel} {t : Str} {fs : List Filter}, Logic leaf lv t fs → ∃ u, t = u ++ [')'] := by
    intro lv t fs h
    induction h with
    | leaf h => exact hclose _ _ h
    | not _ _ ih => obtain ⟨u, rfl⟩ := ih; exact ⟨_, (List.append_assoc _ _ _).symm⟩
    | paren => exact ⟨_, rfl⟩
    | andOne _ ih => exact ih
    | andCons _ _ _ _ _ ih => obtain ⟨u, rfl⟩ := ih; exact ⟨_, (List.append_assoc _ _ _).symm⟩
    | orOne _ ih => exact ih
    | orCons _ _ _ _ _ ih => obtain ⟨u, rfl⟩ := ih; exact ⟨_, (List.append_assoc _ _ _).symm⟩
  have hlead : ∀ {lv : LogicLevel} {t : Str} {fs : List Filter}, Logic leaf lv t fs → ∀ r, firstReal (t ++ r) = some '(' := by
    intro lv t fs h
    induction h with
    | leaf h => intro r; obtain ⟨u, rfl⟩ := hopen _ _ h; rfl
    | not hb _ ih =>
      intro r
      rw [List.append_assoc, List.append_assoc]
      rw [firstReal_append_blank _ _ (by intro c hc; simp at hc; rcases hc with rfl | rfl | rfl <;> decide),
        firstReal_append_blank _ _ (blank_lead _ hb)]
      exact ih r
    | paren => intro r; rfl
    | andOne _ ih => exact ih
    | andCons _ _ _ _ ih _ => intro r; simp only [List.append_assoc]; exact ih _
    | orOne _ ih => exact ih
    | orCons _ _ _ _ ih _ => intro r; simp only [List.append_assoc]; exact ih _
  /- a text ending in ')' that is a prefix of the whole is the whole -/
  have hpre : ∀ t r : Str, (∃ u, t = u ++ [')']) → str "(" ++ w ++ str ")" = t ++ r → r = [] := by
    rintro t r ⟨u, rfl⟩ he
    have hc : (str "(" ++ w ++ str ")").count ')' = 1 := by
      simp [List.count_append, List.count_eq_zero.mpr hw]
    rcases List.eq_nil_or_concat r with rfl | ⟨r', c, rfl⟩
    · rfl
    · exfalso
      rw [List.concat_eq_append, ← List.append_assoc] at he
      have hlast := (List.append_inj' he rfl).2
      simp at hlast
      subst hlast
      rw [he] at hc
      simp [List.count_append] at hc
      omega
  obtain ⟨fs, hl, rfl⟩ := h
  generalize hs : str "(" ++ w ++ str ")" = s at hl
  have hterm : ∀ {f}, Logic leaf .term s [f] → leaf s f := by
    intro f h
    cases h with
    | leaf h => exact h
    | not => simp at hs
    | @paren a b t fs ha hb ht =>
      exfalso
      have h1 : w ++ str ")" = a ++ (t ++ (b ++ str ")")) := by simpa using hs
      have h2 := hlead ht (b ++ str ")")
      rw [← firstReal_append_blank a _ (blank_lead a ha), ← h1] at h2
      exact hfirst _ h2
  have hands : ∀ {fs}, Logic leaf .ands s fs → leaf s (bundle .and fs) := by
    intro fs h
    cases h with
    | andOne h => exact hterm h
    | @andCons a b t u f fs ht ha hb hu =>
      exfalso
      have := hpre t (a ++ (str "AND" ++ (b ++ u))) (hend ht) (by rw [hs]; simp)
      simp at this
  cases hl with
  | orOne h => exact hands h
  | @orCons a b t u fs gs ht ha hb hu =>
    exfalso
    have := hpre t (a ++ (str "OR" ++ (b ++ u))) (hend ht) (by rw [hs]; simp)
    simp at this

/-- the only comparison that can be read from `attr=e` when `e` has no asterisk -/
theorem ava_equality (a e : Str) (g : Filter) (ha : AttrText a) (he : '*' ∉ e) (h : AvaText (a ++ str "=" ++ e) g) :
    g = .equality a e ∧ ValueText e := by
  have h1 := avaComp_complete _ [] g h
  simp only [List.append_assoc, List.cons_append, List.nil_append] at h1
  have h2 := attr_op a (e ++ [')']) '=' ha (by decide)
  have hv := value_sound (e ++ [')'])
  have hns : ∀ r, (value (e ++ [')'])).2 ≠ '*' :: r := by
    intro r hr
    have : '*' ∈ e ++ [')'] := by rw [hv.1, hr]; simp
    simp at this
    exact he this
  have h3 : substringP (a ++ '=' :: (e ++ [')'])) = none := by
    simp only [substringP, h2, kw, if_true]
    split
    · rename_i i r hir
      exact absurd (by rw [hir]) (hns r)
    · rfl
  have h4 : simpleP (a ++ '=' :: (e ++ [')'])) = some (.simple a .equals (value (e ++ [')'])).1, (value (e ++ [')'])).2) := by
    simp only [simpleP, h2]
    have := filtertype_complete .equals (e ++ [')'])
    simp only [FType.text, List.cons_append, List.nil_append] at this
    rw [this]
  have h5 : avaP (a ++ '=' :: (e ++ [')'])) = some (.simple a .equals (value (e ++ [')'])).1, (value (e ++ [')'])).2) := by
    simp only [avaP, h3, h4, Option.orElse]
  simp only [avaComp, h5, Option.map_some, Option.some.injEq, Prod.mk.injEq, handleAva] at h1
  have h6 := hv.1
  rw [h1.2] at h6
  have h7 : (value (e ++ [')'])).1 = e := (List.append_cancel_right h6).symm
  rw [h7] at h1
  exact ⟨h1.1.symm, by rw [← h7]; exact hv.2.1⟩

theorem std_equality (a e : Str) (g : Filter) (ha : AttrText a) (he : '*' ∉ e) (h : StdText (str "(" ++ (a ++ str "=" ++ e) ++ str ")") g) :
    g = .equality a e ∧ ValueText e := by
  obtain ⟨c, a', rfl, hc⟩ : ∃ c a', a = c :: a' ∧ (isLetter c ∨ isDig c ∨ c = ':') := by
    obtain ⟨o, opts, rfl, ho, _⟩ := ha
    rcases ho with ⟨c, t, rfl, hc, _⟩ | ⟨c, t, rfl, _, hc, _⟩
    · exact ⟨c, _, rfl, .inl hc⟩
    · exact ⟨c, _, rfl, .inr (.inl hc)⟩
  have hn := head_not_op c hc
  generalize hs : str "(" ++ (c :: a' ++ str "=" ++ e) ++ str ")" = s at h
  cases h with
  | @comparison t _ ht =>
    have : t = c :: a' ++ str "=" ++ e := by
      have := List.append_inj' hs rfl
      exact (List.append_cancel_left this.1).symm
    subst this
    exact ava_equality _ _ _ ha he ht
  | and => simp at hs; exact absurd hs.1 hn.1
  | or => simp at hs; exact absurd hs.1 hn.2.1
  | not => simp at hs; exact absurd hs.1 hn.2.2.1

/-- **C19.** For any attribute description and *any* string `v`: `(attr=escape(v))`, in each of the three syntaxes, is either refused
with `LDAPError` or parsed to exactly one equality comparison of that attribute with the value text `escape(v)`; which of the two does not
depend on the syntax. -/
theorem c19_no_injection (a v : Str) (ha : AttrText a) :
    let s := str "(" ++ (a ++ str "=" ++ escape v) ++ str ")"
    (parseStandard s = .ok (.equality a (escape v)) ∧ parseSimple s = .ok (.equality a (escape v)) ∧
      parseUnified s = .ok (.equality a (escape v)) ∧ ValueText (escape v)) ∨
    (parseStandard s = .error .ldapError ∧ parseSimple s = .error .ldapError ∧ parseUnified s = .error .ldapError ∧
      ¬ ValueText (escape v)) := by
  intro s
  have hstar : '*' ∉ escape v := escape_clean v _ (by decide)
  have hclose : ')' ∉ a ++ str "=" ++ escape v := by
    have h1 : ')' ∉ escape v := escape_clean v _ (by decide)
    have h2 : ')' ∉ a := by
      obtain ⟨o, opts, rfl, ho, hopts⟩ := ha
      have hnc : ¬ isNameChar ')' := by simp [isNameChar, isLetter, isDig]
      intro hm
      rcases List.mem_append.mp hm with h | h
      · rcases ho with ⟨c, t, rfl, hc, ht⟩ | ⟨c, l, rfl, _, hc, hl⟩
        · rcases List.mem_cons.mp h with rfl | h
          · exact hnc (.inl hc)
          · exact hnc (ht _ h)
        · rcases List.mem_cons.mp h with rfl | h
          · exact hnc (.inr (.inl hc))
          · simp only [List.mem_flatten, List.mem_map] at h
            obtain ⟨_, ⟨b, hb, rfl⟩, h⟩ := h
            simp at h
            subst h; exact hnc (.inr (.inl (hl _ hb)))
      · simp only [List.mem_flatten, List.mem_map] at h
        obtain ⟨_, ⟨p, hp, rfl⟩, h⟩ := h
        rcases List.mem_cons.mp h with h | h
        · simp at h
        · exact hnc ((hopts p hp).2 _ h)
    simp [h1, h2]
  have hfirst : ∀ r, firstReal ((a ++ str "=" ++ escape v) ++ r) ≠ some '(' := by
    intro r
    simp only [List.append_assoc, List.cons_append, List.nil_append]
    exact firstReal_ne a _ '=' (attr_no_paren ha) (by decide) (by decide)
  have hstd : ∀ g, StdText s g → g = .equality a (escape v) ∧ ValueText (escape v) := fun g h => std_equality a _ g ha hstar h
  have hsimple : ∀ g, SimpleLeaf s g → StdText s g := by
    rintro g ⟨t, ht, h⟩; rw [h]; exact .comparison ht
  have huni : ∀ g, LogicText StdText s g → StdText s g := fun g h =>
    logic_only_leaf stdText_close (fun t f h => by obtain ⟨⟨u, hu, _⟩, _⟩ := unifiedLeaf_complete t f h; exact ⟨u, hu⟩) _ g hclose hfirst h
  have hsim : ∀ g, LogicText SimpleLeaf s g → SimpleLeaf s g := fun g h =>
    logic_only_leaf (by rintro t f ⟨u, _, rfl⟩; exact ⟨_, rfl⟩) (by rintro t f ⟨u, _, rfl⟩; exact ⟨_, rfl⟩) _ g hclose hfirst h
  by_cases hv : ValueText (escape v)
  · left
    have h1 : AvaText (a ++ str "=" ++ escape v) (.equality a (escape v)) := .equality ha hv
    have h2 : LogicText SimpleLeaf s (.equality a (escape v)) := ⟨[_], .orOne (fs := [_]) (.andOne (.leaf ⟨_, h1, rfl⟩)), rfl⟩
    have h3 := (parseSimple_iff _ _).mpr h2
    exact ⟨(parseStandard_iff _ _).mpr (.comparison h1), h3, c17_simple_in_unified _ _ h3, hv⟩
  · right
    refine ⟨?_, ?_, ?_, hv⟩
    · rcases (c16_only_ldap_error s).1 with ⟨g, hg⟩ | h
      · exact absurd (hstd g ((parseStandard_iff _ _).mp hg)).2 hv
      · exact h
    · rcases (c16_only_ldap_error s).2.1 with ⟨g, hg⟩ | h
      · exact absurd (hstd g (hsimple g (hsim g ((parseSimple_iff _ _).mp hg)))).2 hv
      · exact h
    · rcases (c16_only_ldap_error s).2.2 with ⟨g, hg⟩ | h
      · exact absurd (hstd g (huni g ((parseUnified_iff _ _).mp hg))).2 hv
      · exact h

/-- **C19.** Values without NUL and backslash are always accepted, as exactly that comparison. -/
theorem c19_accepted_partial (a v : Str) (ha : AttrText a) (hv : ∀ c ∈ v, c ≠ Char.ofNat 0 ∧ c ≠ '\\') :
    let s := str "(" ++ (a ++ str "=" ++ escape v) ++ str ")"
    parseStandard s = .ok (.equality a (escape v)) ∧ parseSimple s = .ok (.equality a (escape v)) ∧
      parseUnified s = .ok (.equality a (escape v)) := by
  intro s
  rcases c19_no_injection a v ha with h | h
  · exact ⟨h.1, h.2.1, h.2.2.1⟩
  · exact absurd (escape_valueText v hv) h.2.2.2

example : escape (str "a)(uid=*") = str "a\\29\\28uid\\3d\\2a" ∧
    parseUnified (str "(cn=" ++ escape (str "a)(uid=*") ++ str ")") = .ok (.equality (str "cn") (str "a\\29\\28uid\\3d\\2a")) :=
  ⟨rfl, rfl⟩

/-- **C19, C20 fail for a backslash.** `escape` leaves it alone: the filter is refused, or the backslash and two following hex digits are
taken for an escape. -/
theorem c19_backslash :
    escape (str "\\") = str "\\" ∧
    parseUnified (str "(cn=" ++ escape (str "C:\\temp") ++ str ")") = .error .ldapError ∧
    escape (str "\\28") = escape (str "(") := ⟨rfl, rfl, rfl⟩

/-- **C20 (partial).** For values without backslash, RFC 4515 decoding of the escaped text gives the value back … -/
theorem c20_decode_partial (v : Str) (hv : '\\' ∉ v) : decodeValue (escape v) = some v := by
  induction v with
  | nil => rfl
  | cons x v ih =>
    have ih := ih (fun h => hv (List.mem_cons_of_mem _ h))
    rw [escape_cons]
    by_cases hx : x ∈ special
    · obtain ⟨h1, h2, he, a, b, hc⟩ := escape_special x hx
      rw [he]
      simp only [List.cons_append, List.nil_append, decodeValue, a, b, and_self, if_true, ih, Option.map_some, hc]
    · rw [escape_plain x hx]
      have hne : x ≠ '\\' := fun h => hv (by simp [h])
      simp only [List.cons_append, List.nil_append]
      rw [decodeValue.eq_3 _ _ (by intro _ _ _ e; exact absurd e hne)]
      simp [hne, ih]

/-- … and distinct values have distinct escaped forms. -/
theorem c20_injective_partial (v w : Str) (hv : '\\' ∉ v) (hw : '\\' ∉ w) (h : escape v = escape w) : v = w := by
  have a := c20_decode_partial v hv
  rw [h, c20_decode_partial w hw] at a
  exact (Option.some.inj a).symm

/-- **C20 fails:** two different values with the same escaped form. -/
theorem c20_not_injective : escape (str "\\28") = escape (str "(") ∧ str "\\28" ≠ str "(" := ⟨rfl, by decide⟩

/-- **C20 fails:** escape sequences are not decoded before the value is sent: the comparison holds the text `\28`, not `(`. -/
theorem c20_not_decoded : ∃ v, parseUnified (str "(cn=" ++ escape (str "(") ++ str ")") = .ok (.equality (str "cn") v) ∧
    v = str "\\28" ∧ v ≠ str "(" := ⟨_, rfl, rfl, by decide⟩

/-! ### C21: precedence -/

/-- comparisons in parentheses, with a truth value -/
def truthOf (val : Filter → Tri) (s : Str) (b : Tri) : Prop := ∃ f, SimpleLeaf s f ∧ b = val f

/-- comparisons are not boolean combinations -/
theorem evalFilter_leaf (val : Filter → Tri) (s : Str) (f : Filter) (h : SimpleLeaf s f) : evalFilter val f = val f := by
  obtain ⟨t, ht, _⟩ := h
  cases ht <;> simp [evalFilter]

theorem eval_bundle_and (val : Filter → Tri) (fs : List Filter) (h : fs ≠ []) :
    evalFilter val (bundle .and fs) = triAnd (evalFilter.evalList val fs) := by
  match fs with
  | [f] =>
    simp only [bundle, evalFilter.evalList, triAnd, List.foldr]
    rcases evalFilter val f with _ | _ | _ <;> rfl
  | f :: g :: fs => rfl

theorem eval_bundle_or (val : Filter → Tri) (fs : List Filter) (h : fs ≠ []) :
    evalFilter val (bundle .or fs) = triOr (evalFilter.evalList val fs) := by
  match fs with
  | [f] =>
    simp only [bundle, evalFilter.evalList, triOr, List.foldr]
    rcases evalFilter val f with _ | _ | _ <;> rfl
  | f :: g :: fs => rfl

/-- the value a list of operands has at its level -/
def levelValue (val : Filter → Tri) : LogicLevel → List Filter → Tri
  | .term, fs => triAnd (evalFilter.evalList val fs)
  | .ands, fs => triAnd (evalFilter.evalList val fs)
  | .ors, fs => triOr (evalFilter.evalList val fs)

theorem logic_ne_nil {leaf : Str → Filter → Prop} {lv : LogicLevel} {s : Str} {fs : List Filter} (h : Logic leaf lv s fs) : fs ≠ [] := by
  cases h <;> simp

theorem kand_true (b : Tri) : kand b (some true) = b := by rcases b with _ | _ | _ <;> rfl
theorem kor_false (b : Tri) : kor b (some false) = b := by rcases b with _ | _ | _ <;> rfl

theorem one_and (val : Filter → Tri) (f : Filter) : triAnd (evalFilter.evalList val [f]) = evalFilter val f := by
  simp [evalFilter.evalList, triAnd, kand_true]

theorem one_or (val : Filter → Tri) (f : Filter) : triOr (evalFilter.evalList val [f]) = evalFilter val f := by
  simp [evalFilter.evalList, triOr, kor_false]

theorem logic_means (val : Filter → Tri) {lv : LogicLevel} {s : Str} {fs : List Filter} (h : Logic SimpleLeaf lv s fs) :
    Means (truthOf val) lv s (levelValue val lv fs) := by
  induction h with
  | @leaf s f h => simp only [levelValue, one_and, evalFilter_leaf val s f h]; exact .comparison ⟨f, h, rfl⟩
  | @not b s f hb _ ih =>
    simp only [levelValue, one_and] at *
    simp only [evalFilter]
    exact .not hb ih
  | @paren a b s fs ha hb h ih =>
    simp only [levelValue, one_and] at *
    rw [eval_bundle_or val fs (logic_ne_nil h)]
    exact .paren ha hb ih
  | andOne _ ih => exact .and1 ih
  | @andCons a b s t f fs _ ha hb _ ih1 ih2 =>
    simp only [levelValue, one_and] at ih1
    exact .and2 ih1 ha hb ih2
  | @orOne s fs h ih =>
    simp only [levelValue, one_or] at *
    rw [eval_bundle_and val fs (logic_ne_nil h)]
    exact .or1 ih
  | @orCons a b s t fs gs h ha hb _ ih1 ih2 =>
    have := Means.or2 ih1 ha hb ih2
    simp only [levelValue, evalFilter.evalList, triOr, List.foldr] at *
    rw [eval_bundle_and val fs (logic_ne_nil h)]
    exact this

theorem means_logic (val : Filter → Tri) {lv : LogicLevel} {s : Str} {b : Tri} (h : Means (truthOf val) lv s b) :
    ∃ fs, Logic SimpleLeaf lv s fs ∧ levelValue val lv fs = b ∧ (lv = .term → ∃ f, fs = [f]) := by
  induction h with
  | @comparison s b h =>
    obtain ⟨f, hf, rfl⟩ := h
    exact ⟨[f], .leaf hf, by simp only [levelValue, one_and, evalFilter_leaf val s f hf], fun _ => ⟨f, rfl⟩⟩
  | not hb _ ih =>
    obtain ⟨fs, h1, h2, h3⟩ := ih
    obtain ⟨f, rfl⟩ := h3 rfl
    refine ⟨_, .not hb h1, ?_, fun _ => ⟨_, rfl⟩⟩
    simp only [levelValue, one_and] at *
    simp only [evalFilter, h2]
  | paren ha hb _ ih =>
    obtain ⟨fs, h1, h2, _⟩ := ih
    refine ⟨_, .paren ha hb h1, ?_, fun _ => ⟨_, rfl⟩⟩
    simp only [levelValue, one_and] at *
    rw [eval_bundle_or val fs (logic_ne_nil h1), h2]
  | and1 _ ih =>
    obtain ⟨fs, h1, h2, h3⟩ := ih
    obtain ⟨f, rfl⟩ := h3 rfl
    exact ⟨_, .andOne h1, h2, by simp⟩
  | and2 _ ha hb _ ih1 ih2 =>
    obtain ⟨fs, h1, h2, h3⟩ := ih1
    obtain ⟨gs, g1, g2, _⟩ := ih2
    obtain ⟨f, rfl⟩ := h3 rfl
    refine ⟨_, .andCons h1 ha hb g1, ?_, by simp⟩
    simp only [levelValue, one_and] at *
    rw [← h2, ← g2]; rfl
  | or1 _ ih =>
    obtain ⟨fs, h1, h2, _⟩ := ih
    refine ⟨_, .orOne h1, ?_, by simp⟩
    simp only [levelValue, one_or] at *
    rw [eval_bundle_and val fs (logic_ne_nil h1), h2]
  | or2 _ ha hb _ ih1 ih2 =>
    obtain ⟨fs, h1, h2, _⟩ := ih1
    obtain ⟨gs, g1, g2, _⟩ := ih2
    refine ⟨_, .orCons h1 ha hb g1, ?_, by simp⟩
    simp only [levelValue] at *
    simp only [evalFilter.evalList, triOr, List.foldr]
    rw [eval_bundle_and val fs (logic_ne_nil h1), h2, ← g2]; rfl

/-- **C21.** A text parses in simple syntax exactly when it is a written boolean expression over parenthesised comparisons, and the filter
obtained evaluates – for any truth values of the comparisons, including Undefined – to what the expression means by the conventional reading. -/
theorem c21_precedence (val : Filter → Tri) (s : Str) :
    (∀ f, parseSimple s = .ok f → Means (truthOf val) .ors s (evalFilter val f)) ∧
    (∀ b, Means (truthOf val) .ors s b → ∃ f, parseSimple s = .ok f ∧ evalFilter val f = b) := by
  constructor
  · intro f h
    obtain ⟨fs, hl, rfl⟩ := (parseSimple_iff s f).mp h
    rw [eval_bundle_or val fs (logic_ne_nil hl)]
    exact logic_means val hl
  · intro b h
    obtain ⟨fs, h1, h2, _⟩ := means_logic val h
    exact ⟨_, (parseSimple_iff s _).mpr ⟨fs, h1, rfl⟩, by rw [eval_bundle_or val fs (logic_ne_nil h1)]; exact h2⟩

/-- an expression where the precedence matters -/
example : parseSimple (str "(a=1) OR NOT (b=1) AND (c=1)") =
    .ok (.or [.equality (str "a") (str "1"), .and [.not (.equality (str "b") (str "1")), .equality (str "c") (str "1")]]) := by rfl

/-! ### C22: numeric OIDs -/

/-- **C22 (partial).** Numeric OIDs with one-digit arcs are accepted as attribute descriptions. -/
theorem c22_short_partial (o v : Str) (ho : ShortOid o) (hv : ValueText v) :
    parseStandard (str "(" ++ (o ++ str "=" ++ v) ++ str ")") = .ok (.equality o v) :=
  (parseStandard_iff _ _).mpr (.comparison (.equality ⟨o, [], by simp, .inr ho, by simp⟩ hv))

theorem numericOid_chars (o : Str) (h : NumericOid o) : ∀ c ∈ o, isDig c ∨ c = '.' := by
  obtain ⟨a, l, rfl, _, ha, hl⟩ := h
  intro c hc
  rcases List.mem_append.mp hc with h | h
  · exact .inl (ha.2.1 c h)
  · simp only [List.mem_flatten, List.mem_map] at h
    obtain ⟨_, ⟨b, hb, rfl⟩, h⟩ := h
    rcases List.mem_cons.mp h with h | h
    · exact .inr h
    · exact .inl ((hl b hb).2.1 c h)

theorem split_at_char (a b u w : Str) (c d : Char) (P : Char → Prop) (ha : ∀ x ∈ a, P x) (hb : ∀ x ∈ b, P x) (hc : ¬ P c) (hd : ¬ P d)
    (h : a ++ c :: u = b ++ d :: w) : a = b := by
  induction a generalizing b with
  | nil =>
    cases b with
    | nil => rfl
    | cons y b => simp at h; exact absurd (h.1 ▸ hb y (by simp)) hc
  | cons x a ih =>
    cases b with
    | nil => simp at h; exact absurd (h.1 ▸ ha x (by simp)) hd
    | cons y b =>
      simp at h
      rw [h.1, ih b (fun z hz => ha z (List.mem_cons_of_mem _ hz)) (fun z hz => hb z (List.mem_cons_of_mem _ hz)) h.2]

/-- **C22, exactly.** A well-formed numeric OID is accepted as the attribute of an equality comparison iff all its arcs have one digit. -/
theorem c22_exact (o v : Str) (ho : NumericOid o) (hv : ValueText v) :
    (∃ f, parseStandard (str "(" ++ (o ++ str "=" ++ v) ++ str ")") = .ok f) ↔ ShortOid o := by
  constructor
  · rintro ⟨f, hf⟩
    have hd := numericOid_chars o ho
    have hfirst : ∃ c t, o = c :: t ∧ isDig c := by
      obtain ⟨a, l, rfl, _, ha, _⟩ := ho
      cases a with
      | nil => exact absurd rfl ha.1
      | cons c a => exact ⟨c, _, rfl, ha.2.1 c (by simp)⟩
    obtain ⟨c, t, rfl, hc⟩ := hfirst
    have hn := head_not_op c (.inr (.inl hc))
    have hst := (parseStandard_iff _ _).mp hf
    generalize hs : str "(" ++ (c :: t ++ str "=" ++ v) ++ str ")" = s at hst
    have hava : AvaText (c :: t ++ str "=" ++ v) f := by
      cases hst with
      | @comparison u _ hu =>
        have : u = c :: t ++ str "=" ++ v := by
          have := List.append_inj' hs rfl
          exact (List.append_cancel_left this.1).symm
        subst this; exact hu
      | and => simp at hs; exact absurd hs.1 hn.1
      | or => simp at hs; exact absurd hs.1 hn.2.1
      | not => simp at hs; exact absurd hs.1 hn.2.2.1
    have key : ∀ a u, AttrText a → (∃ d w, u = d :: w ∧ (d = '=' ∨ d = '~' ∨ d = '>' ∨ d = '<' ∨ d = ':')) →
        a ++ u = c :: t ++ str "=" ++ v → ShortOid (c :: t) := by
      rintro a u ha ⟨d, w, rfl, hdd⟩ he
      have hat : ∀ x ∈ a, isAttrChar x = true := by
        obtain ⟨o, opts, rfl, ho, hopts⟩ := ha
        have hnc : ∀ x, isNameChar x → isAttrChar x = true := by
          intro x hx; simp [isAttrChar, (isKeychar_iff x).mpr hx]
        intro x hx
        rcases List.mem_append.mp hx with h | h
        · rcases ho with ⟨c, t, rfl, hc, ht⟩ | ⟨c, l, rfl, _, hc, hl⟩
          · rcases List.mem_cons.mp h with rfl | h
            · exact hnc _ (.inl hc)
            · exact hnc _ (ht _ h)
          · rcases List.mem_cons.mp h with rfl | h
            · exact hnc _ (.inr (.inl hc))
            · simp only [List.mem_flatten, List.mem_map] at h
              obtain ⟨_, ⟨b, hb, rfl⟩, h⟩ := h
              simp at h
              rcases h with rfl | rfl
              · decide
              · exact hnc _ (.inr (.inl (hl _ hb)))
        · simp only [List.mem_flatten, List.mem_map] at h
          obtain ⟨_, ⟨p, hp, rfl⟩, h⟩ := h
          rcases List.mem_cons.mp h with rfl | h
          · decide
          · exact hnc _ ((hopts p hp).2 _ h)
      have hct : ∀ x ∈ c :: t, isAttrChar x = true := by
        intro x hx
        rcases hd x hx with h | rfl
        · simp [isAttrChar, isKeychar, (isDigit_iff x).mpr h]
        · decide
      have : a = c :: t := split_at_char a (c :: t) w v d '=' (fun x => isAttrChar x = true) hat hct
        (by rcases hdd with rfl | rfl | rfl | rfl | rfl <;> decide) (by decide) (by simpa using he)
      subst this
      obtain ⟨o, opts, he', hoo, hopts⟩ := ha
      have hopts0 : opts = [] := by
        cases opts with
        | nil => rfl
        | cons p opts =>
          exfalso
          have : ';' ∈ c :: t := by rw [he']; simp
          rcases hd _ this with h | h
          · revert h; simp [isDig]
          · simp at h
      subst hopts0
      simp at he'
      subst he'
      rcases hoo with ⟨c', t', he2, hc', _⟩ | h
      · exfalso
        cases he2
        have h1 := digit_not_letter c hc
        rw [(isAlpha_iff c).mpr hc'] at h1
        cases h1
      · exact h
    obtain ⟨n, hok, htext, _⟩ := (ava_iff _ _).mp hava
    cases n with
    | simple a ft w =>
      refine key a (ft.text ++ w) hok.1 ?_ (by simpa [AvaNode.text] using htext)
      cases ft <;> exact ⟨_, _, rfl, by simp⟩
    | substring a i anys f => exact key a _ hok.1 ⟨'=', _, rfl, by simp⟩ (by simpa [AvaNode.text] using htext)
    | ext6 a d m w =>
      obtain ⟨ha, hd', hm, _, _⟩ := hok
      refine key a (d ++ (m ++ (str ":=" ++ w))) ha ?_ (by simpa [AvaNode.text] using htext)
      rcases hd' with rfl | rfl
      · rcases hm with rfl | ⟨o, rfl, _⟩ <;> exact ⟨_, _, rfl, by simp⟩
      · exact ⟨_, _, rfl, by simp⟩
    | ext5 d m w =>
      exfalso
      obtain ⟨hd', ⟨o, rfl, _⟩, _, _⟩ := hok
      have hcolon : c = ':' := by
        rcases hd' with rfl | rfl <;> (simp [AvaNode.text] at htext; exact htext.1.symm)
      subst hcolon
      revert hc; simp [isDig]
  · intro h; exact ⟨_, c22_short_partial o v h hv⟩

/-- **C22 fails:** `2.5.4.10` is a well-formed numeric OID and is refused. -/
theorem c22_refused : NumericOid (str "2.5.4.10") ∧ parseUnified (str "(2.5.4.10=x)") = .error .ldapError := by
  refine ⟨⟨str "2", [str "5", str "4", str "10"], rfl, by simp, ?_, ?_⟩, rfl⟩
  · simp [Arc, isDig]
  · intro b hb
    simp at hb
    rcases hb with rfl | rfl | rfl <;> simp [Arc, isDig]

end Laurelin.Props
