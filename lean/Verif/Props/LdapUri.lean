import Verif.Model.LdapUri
import Verif.Spec.Rfc4516
/-!
Property C48: LDAP URLs.
-/
namespace Laurelin.Props
open Laurelin Spec

namespace UriP

theorem commaList_eq (l : List Str) : commaList l = pyJoin [','] l := by
  induction l with
  | nil => rfl
  | cons x l ih =>
    cases l with
    | nil => rfl
    | cons y l => simp only [commaList, pyJoin, ih]; simp

theorem takeWhile_all {p : Char → Bool} (a b : Str) (c : Char) (ha : ∀ x ∈ a, p x = true) (hc : p c = false) :
    (a ++ c :: b).takeWhile p = a ∧ (a ++ c :: b).dropWhile p = c :: b := by
  induction a with
  | nil => simp [hc]
  | cons x t ih =>
    have := ih (fun y hy => ha y (by simp [hy]))
    simp [ha x (by simp), this.1, this.2]

theorem flat_fields (fs : List Str) (h : fs ≠ []) : (fs.map ('?' :: ·)).flatten = '?' :: pyJoin ['?'] fs := by
  induction fs with
  | nil => exact absurd rfl h
  | cons f fs ih =>
    cases fs with
    | nil => simp [pyJoin]
    | cons g fs => rw [List.map_cons, List.flatten_cons, ih (by simp)]; simp [pyJoin]

theorem cutAt_none (c : Char) (s : Str) (h : c ∉ s) : cutAt c s = (s, []) := by
  simp [cutAt, (splitFirst_none c s).2 h]

theorem cutAt_some (c : Char) (a b : Str) (h : c ∉ a) : cutAt c (a ++ c :: b) = (a, b) := by
  simp [cutAt, (splitFirst_some c _ a b).2 ⟨h, rfl⟩]

theorem mem_fields (fs : List Str) (x : Char) (h : x ∈ (fs.map ('?' :: ·)).flatten) : x = '?' ∨ ∃ f ∈ fs, x ∈ f := by
  simp only [List.mem_flatten, List.mem_map] at h
  obtain ⟨_, ⟨f, hf, rfl⟩, hx⟩ := h
  rcases List.mem_cons.1 hx with rfl | hx
  · exact .inl rfl
  · exact .inr ⟨f, hf, hx⟩

end UriP
open UriP

/-- a scheme: a letter followed by letters, digits, `+`, `-`, `.` -/
def IsScheme (s : Str) : Prop := ∃ c t, s = c :: t ∧ c.isAlpha = true ∧ t.all schemeChar = true

theorem alpha_gt (c : Char) (h : c.isAlpha = true) : 32 < c.toNat ∧ c ≠ ':' := by
  refine ⟨?_, ?_⟩
  · simp only [Char.isAlpha, Char.isUpper, Char.isLower, Bool.or_eq_true, Bool.and_eq_true, decide_eq_true_eq] at h
    have e : c.toNat = c.val.toNat := rfl
    rcases h with ⟨h, _⟩ | ⟨h, _⟩
    · have h' : (65 : UInt32).toNat ≤ c.val.toNat := h
      simp at h'; omega
    · have h' : (97 : UInt32).toNat ≤ c.val.toNat := h
      simp at h'; omega
  · intro e; subst e; revert h; decide

theorem schemeChar_ne (c : Char) (h : schemeChar c = true) : 32 < c.toNat ∧ c ≠ ':' := by
  simp only [schemeChar, Bool.or_eq_true, beq_iff_eq] at h
  rcases h with (((h | h) | h) | h) | h
  · exact alpha_gt c h
  · refine ⟨?_, ?_⟩
    · simp only [Char.isDigit, Bool.and_eq_true, decide_eq_true_eq] at h
      have e : c.toNat = c.val.toNat := rfl
      have h' : (48 : UInt32).toNat ≤ c.val.toNat := h.1
      simp at h'; omega
    · intro e; subst e; revert h; decide
  · subst h; decide
  · subst h; decide
  · subst h; decide

/-- what `urlparse` makes of a URL text whose parts stand for themselves -/
theorem urlParse_text (scheme host dn : Str) (fs : List Str) (hs : IsScheme scheme)
    (hh : ∀ c ∈ host, 32 < c.toNat ∧ c ≠ '/' ∧ c ≠ '?' ∧ c ≠ '#') (hd : urlPlain dn) (hf : ∀ f ∈ fs, urlPlain f) :
    urlParse (urlText scheme host dn fs) = ⟨asciiLower scheme, host, '/' :: dn, pyJoin ['?'] fs⟩ := by
  obtain ⟨c, t, rfl, hc, ht⟩ := hs
  have hgt : ∀ x ∈ urlText (c :: t) host dn fs, 32 < x.toNat := by
    intro x hx
    simp only [urlText, List.mem_append] at hx
    rcases hx with ((((h | h) | h) | h) | h) | h
    · rcases List.mem_cons.1 h with rfl | h
      · exact (alpha_gt _ hc).1
      · exact (schemeChar_ne _ (List.all_eq_true.1 ht _ h)).1
    · simp at h; rcases h with rfl | rfl <;> decide
    · exact (hh x h).1
    · simp at h; subst h; decide
    · exact (hd x h).2.2.2
    · rcases mem_fields fs x h with rfl | ⟨f, hf', hx⟩
      · decide
      · exact (hf f hf' x hx).2.2.2
  have h1 : (urlText (c :: t) host dn fs).dropWhile (fun c => decide (c.toNat ≤ 32)) = urlText (c :: t) host dn fs := by
    have : ¬ c.toNat ≤ 32 := by have := (alpha_gt c hc).1; omega
    simp [urlText, this]
  have h2 : (urlText (c :: t) host dn fs).filter (fun c => !(c == '\t' || c == '\r' || c == '\n')) = urlText (c :: t) host dn fs := by
    rw [List.filter_eq_self]
    intro x hx
    have := hgt x hx
    have e1 : x ≠ '\t' := by rintro rfl; exact absurd this (by decide)
    have e2 : x ≠ '\r' := by rintro rfl; exact absurd this (by decide)
    have e3 : x ≠ '\n' := by rintro rfl; exact absurd this (by decide)
    simp [e1, e2, e3]
  have hcolon : ':' ∉ c :: t := by
    intro h
    rcases List.mem_cons.1 h with e | h
    · exact (alpha_gt c hc).2 e.symm
    · exact (schemeChar_ne _ (List.all_eq_true.1 ht _ h)).2 rfl
  let tail : Str := '/' :: (dn ++ (fs.map ('?' :: ·)).flatten)
  have h3 : splitFirst ':' (urlText (c :: t) host dn fs) = some (c :: t, '/' :: '/' :: (host ++ tail)) := by
    rw [splitFirst_some]
    exact ⟨hcolon, by simp [urlText, tail]⟩
  have h4 := takeWhile_all (p := fun c => !(c == '/' || c == '?' || c == '#')) host (dn ++ (fs.map ('?' :: ·)).flatten) '/'
    (fun x hx => by have := hh x hx; simp [this.2.1, this.2.2.1, this.2.2.2]) (by decide)
  have h5 : '#' ∉ tail := by
    intro h
    rcases List.mem_cons.1 h with e | h
    · revert e; decide
    · rcases List.mem_append.1 h with h | h
      · exact (hd _ h).2.1 rfl
      · rcases mem_fields fs _ h with e | ⟨f, hf', hx⟩
        · revert e; decide
        · exact (hf f hf' _ hx).2.1 rfl
  have h6 : cutAt '?' tail = ('/' :: dn, pyJoin ['?'] fs) := by
    have hq : '?' ∉ '/' :: dn := by
      intro h
      rcases List.mem_cons.1 h with e | h
      · revert e; decide
      · exact (hd _ h).1 rfl
    by_cases hn : fs = []
    · subst hn
      have : tail = '/' :: dn := by simp [tail]
      rw [this, cutAt_none _ _ hq]; rfl
    · have : tail = ('/' :: dn) ++ '?' :: pyJoin ['?'] fs := by simp only [tail]; rw [flat_fields fs hn]; simp
      rw [this, cutAt_some _ _ _ hq]
  simp only [urlParse, h1, h2, h3]
  have hst : startsWith ('/' :: '/' :: (host ++ tail)) (str "//") = true := by simp [startsWith]
  simp only [hc, ht, Bool.and_self, if_true, hst, List.drop_succ_cons, List.drop_zero]
  show UrlParts.mk _ _ _ _ = _
  rw [h4.1, h4.2, cutAt_none _ _ h5, h6]

/-- the extensions in order: refused iff a critical one is not StartTLS -/
theorem uriExts_eq (es : List (Bool × Str)) (tls : Option Bool) (h : ∀ e ∈ es, e.2.head? ≠ some '!') :
    uriExts (es.map extText) tls =
      if ∃ e ∈ es, e.1 = true ∧ e.2 ≠ str "StartTLS" then .error .ldapError
      else .ok (if ∃ e ∈ es, e.2 = str "StartTLS" then some true else tls) := by
  induction es generalizing tls with
  | nil => simp [uriExts]
  | cons e es ih =>
    have ih := fun tls => ih tls (fun x hx => h x (by simp [hx]))
    obtain ⟨b, n⟩ := e
    have hn := h (b, n) (by simp)
    simp only at hn
    have hname : (if startsWith (extText (b, n)) (str "!") then (extText (b, n)).drop 1 else extText (b, n)) = n ∧
        startsWith (extText (b, n)) (str "!") = b := by
      cases b with
      | true => simp [extText, startsWith]
      | false =>
        have : startsWith n (str "!") = false := by
          cases n with
          | nil => rfl
          | cons c t => 
            have hn' : ('!' == c) = false := by simpa using fun e => hn (by simp only [List.head?_cons, Option.some.injEq]; exact e.symm)
            simp [startsWith, List.isPrefixOf, hn']
        simp [extText, this]
    simp only [List.map_cons, uriExts]
    rw [hname.1, hname.2]
    by_cases hst : n = str "StartTLS"
    · simp only [hst, if_true]
      rw [ih]
      simp only [List.mem_cons, exists_eq_or_imp, ne_eq, not_true_eq_false, and_false, false_or, true_or, if_true]
      split
      · rfl
      · split <;> rfl
    · simp only [hst, if_false]
      cases b with
      | true => simp [hst]
      | false =>
        simp only [Bool.false_eq_true, if_false]
        rw [ih]
        have e1 : (∃ e ∈ (false, n) :: es, e.1 = true ∧ e.2 ≠ str "StartTLS") ↔ ∃ e ∈ es, e.1 = true ∧ e.2 ≠ str "StartTLS" := by simp
        have e2 : (∃ e ∈ (false, n) :: es, e.2 = str "StartTLS") ↔ ∃ e ∈ es, e.2 = str "StartTLS" := by
          simp only [List.mem_cons, exists_eq_or_imp, hst, false_or]
        simp only [e1, e2]

/-- **C48 (partial: parts that need no percent-encoding).** The URL made of a scheme, host, DN and the fields denoting `u` is parsed into exactly
those components, with the RFC 4516 defaults for omitted ones (`StartTLS` given or not); if a critical extension other than StartTLS is present the
URL is refused with `LDAPError`, and only then. A non-empty extension list without StartTLS leaves `starttls` unset. -/
theorem c48_parse_partial (scheme host dn : Str) (fs : List Str) (u : LdapUrl) (hs : IsScheme scheme)
    (hh : ∀ c ∈ host, 32 < c.toNat ∧ c ≠ '/' ∧ c ≠ '?' ∧ c ≠ '#') (hd : urlPlain dn) (hf : ∀ f ∈ fs, urlPlain f)
    (hu : FieldsDenote fs u) (hdn : u.dn = dn) :
    ldapUri (urlText scheme host dn fs) =
      if ∃ e ∈ u.exts, e.1 = true ∧ e.2 ≠ str "StartTLS" then .error .ldapError
      else .ok ⟨asciiLower scheme, host, asciiLower scheme ++ str "://" ++ host, u.dn, u.attrs, u.scope, u.filter,
        if u.exts = [] then some false else if ∃ e ∈ u.exts, e.2 = str "StartTLS" then some true else none⟩ := by
  have hq : ∀ f ∈ fs, '?' ∉ f := fun f h hm => (hf f h _ hm).1 rfl
  have hfield : ∀ i, ((pySplit '?' (pyJoin ['?'] fs))[i]?).getD [] = urlField fs i := by
    intro i
    by_cases hn : fs = []
    · subst hn; cases i <;> simp [pyJoin, pySplit, urlField]
    · rw [split_join '?' fs hn hq]; rfl
  simp only [ldapUri, urlParse_text scheme host dn fs hs hh hd hf, hfield, List.drop_succ_cons, List.drop_zero]
  have ha : (if urlField fs 0 ≠ [] then pySplit ',' (urlField fs 0) else [['*']]) = u.attrs := by
    rcases hu.attrs with ⟨h1, h2⟩ | ⟨h1, h2, h3, h4⟩
    · simp [h1, h2]
    · rw [if_pos h1, h2, commaList_eq, split_join ',' u.attrs h3 h4]
  have hsc : (if urlField fs 1 ≠ [] then scopeOfString (urlField fs 1) else .ok .base) = .ok u.scope := by
    have hne : ∀ w : Str, w ≠ [] → sameLetters (urlField fs 1) w → urlField fs 1 ≠ [] := by
      intro w hw h e; rw [e] at h; exact hw h.symm
    rcases hu.scope with ⟨h1, h2⟩ | ⟨h1, h2⟩ | ⟨h1, h2⟩ | ⟨h1, h2⟩
    · simp [h1, h2]
    · rw [if_pos (hne _ (by decide) h1), h2]; simp only [sameLetters] at h1; simp only [scopeOfString, asciiLower, h1]; rfl
    · rw [if_pos (hne _ (by decide) h1), h2]; simp only [sameLetters] at h1; simp only [scopeOfString, asciiLower, h1]; rfl
    · rw [if_pos (hne _ (by decide) h1), h2]; simp only [sameLetters] at h1; simp only [scopeOfString, asciiLower, h1]; rfl
  have hfi : (if urlField fs 2 ≠ [] then urlField fs 2 else str "(objectClass=*)") = u.filter := by
    rcases hu.filter with ⟨h1, h2⟩ | ⟨h1, h2⟩
    · simp [h1, h2]
    · rw [if_pos h1, h2]
  rw [ha, hsc, hfi]
  simp only
  rcases hu.exts with ⟨h1, h2⟩ | ⟨h1, h2, h3, h4⟩
  · simp [h1, h2, hdn]
  · have h5 : ∀ x ∈ u.exts.map extText, ',' ∉ x := by
      intro x hx
      obtain ⟨e, he, rfl⟩ := List.mem_map.1 hx
      have := (h4 e he).1
      simp only [extText]; split <;> simp [this]
    rw [if_pos h1, h2, commaList_eq, split_join ',' _ (by simpa using h3) h5, uriExts_eq _ _ (fun e he => (h4 e he).2)]
    by_cases hx : ∃ e ∈ u.exts, e.1 = true ∧ e.2 ≠ str "StartTLS"
    · simp only [hx, if_true]
    · simp only [hx, if_false, h3, hdn]

/-- Non-vacuity: a URL with every part. -/
example : ldapUri (urlText (str "ldap") (str "h:389") (str "dc=x") [str "cn,sn", str "Sub", str "(cn=a)", str "!StartTLS,foo"]) =
    .ok ⟨str "ldap", str "h:389", str "ldap://h:389", str "dc=x", [str "cn", str "sn"], .sub, str "(cn=a)", some true⟩ := by rfl
example : FieldsDenote [str "cn,sn", str "Sub", str "(cn=a)", str "!StartTLS,foo"]
    ⟨str "dc=x", [str "cn", str "sn"], .sub, str "(cn=a)", [(true, str "StartTLS"), (false, str "foo")]⟩ :=
  ⟨by decide, .inr ⟨by decide, by decide, by decide, by decide⟩, .inr (.inr (.inr ⟨rfl, rfl⟩)), .inr ⟨by decide, by decide⟩,
    .inr ⟨by decide, by decide, by decide, by decide⟩⟩
/-- Everything omitted: all defaults. -/
example : ldapUri (str "ldap://h") = .ok ⟨str "ldap", str "h", str "ldap://h", [], [['*']], .base, str "(objectClass=*)", some false⟩ := by rfl

/-- **C48.** An unknown scope word is refused with `ValueError`. -/
theorem c48_bad_scope (scheme host dn a sc : Str) (hs : IsScheme scheme)
    (hh : ∀ c ∈ host, 32 < c.toNat ∧ c ≠ '/' ∧ c ≠ '?' ∧ c ≠ '#') (hd : urlPlain dn) (ha : urlPlain a) (hsc : urlPlain sc) (hne : sc ≠ [])
    (hbad : ¬ sameLetters sc (str "base") ∧ ¬ sameLetters sc (str "one") ∧ ¬ sameLetters sc (str "sub")) :
    ldapUri (urlText scheme host dn [a, sc]) = .error .valueError := by
  have hf : ∀ f ∈ [a, sc], urlPlain f := by intro f h; simp at h; rcases h with rfl | rfl <;> assumption
  have hq : ∀ f ∈ [a, sc], '?' ∉ f := fun f h hm => (hf f h _ hm).1 rfl
  simp only [ldapUri, urlParse_text scheme host dn _ hs hh hd hf, split_join '?' [a, sc] (by simp) hq]
  simp only [sameLetters] at hbad
  simp [hne, scopeOfString, asciiLower, hbad]

/-- **C48, what is false.** Percent-encoding is not undone: the DN and the filter are used with their escapes, and an escaped
criticality mark is not seen. -/
theorem c48_percent :
    (ldapUri (str "ldap://h/cn=John%20Smith,dc=x")).map (·.dn) = .ok (str "cn=John%20Smith,dc=x") ∧
    (ldapUri (str "ldap://h/dc=x??sub?(cn=a%20b)")).map (·.filter) = .ok (str "(cn=a%20b)") ∧
    (ldapUri (str "ldap://h/dc=x????%21foo")).map (·.starttls) = .ok none := by
  refine ⟨rfl, rfl, rfl⟩

/-- **C48.** Performing the search of a URL: on success exactly the URL's base, scope, filter and attributes are searched. -/
theorem c48_search (u : LdapUri) (connect tls : Except Err Unit) (send : SearchArgs Unit → Except Err Unit) (unbind : Except Err Unit)
    (a : SearchArgs Unit) (h : (uriSearch u connect tls send unbind).2 = .ok a) :
    a.base = u.dn ∧ a.scope = u.scope ∧ a.filter = some u.filter ∧ a.attrs = some u.attrs ∧ send a = .ok () ∧
    (u.starttls = some true → tls = .ok ()) ∧ (uriSearch u connect tls send unbind).1 = .closed := by
  unfold uriSearch at h ⊢
  simp only at h ⊢
  split at h
  · simp at h
  · split at h
    · simp at h
    · rename_i hst
      split at h
      · simp at h
      · rename_i hsend
        split at h
        · simp at h
        · simp only [Except.ok.injEq] at h
          subst h
          refine ⟨rfl, rfl, rfl, rfl, hsend, fun h => by rw [hst] at h; simp at h, ?_⟩
          simp
    · rename_i hst
      split at h
      · simp at h
      · split at h
        · simp at h
        · rename_i hsend
          split at h
          · simp at h
          · simp only [Except.ok.injEq] at h
            subst h
            refine ⟨rfl, rfl, rfl, rfl, hsend, fun _ => rfl, ?_⟩
            simp

/-- **C48, what is false.** A URL with only unsupported, non-critical extensions (which RFC 4516 says to ignore) is accepted, but searching it
raises `AttributeError` and leaves the connection it opened open. -/
theorem c48_noncritical (send : SearchArgs Unit → Except Err Unit) (tls unbind : Except Err Unit) :
    ∃ u, ldapUri (str "ldap://h/dc=x????foo") = .ok u ∧
      uriSearch u (.ok ()) tls send unbind = (.opened, .error .attributeError) := by
  refine ⟨⟨str "ldap", str "h", str "ldap://h", str "dc=x", [['*']], .base, str "(objectClass=*)", none⟩, rfl, rfl⟩

/-- **C48.** `Scope.string` and `Scope.constant` are inverse to each other on the valid values. -/
theorem c48_scope_words (sc : Scope) (w : Str) (h : scopeText sc = .ok w) : scopeOfString w = .ok sc := by
  cases sc <;> simp [scopeText] at h <;> subst h <;> rfl

end Laurelin.Props
