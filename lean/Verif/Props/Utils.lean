import Verif.Model.Utils
/-!
# C39 closing parenthesis, C40 phone numbers, C41 certificate names, C47 domains
-/
namespace Laurelin.Spec

/-- `i` is the position closing the parenthesis opened at the start of `s`: the brackets up to and including `i` balance, and
no shorter non-empty prefix balances. -/
structure Closes (s : Str) (i : Nat) : Prop where
  opens : s.head? = some '('
  inside : i < s.length
  balanced : (s.take (i + 1)).count '(' = (s.take (i + 1)).count ')'
  first : ∀ j, 0 < j → j ≤ i → (s.take j).count ')' < (s.take j).count '('

/-- `host` is one label (no dot, not empty) followed by `rest` -/
def OneLabel (host rest : Str) : Prop := ∃ l : Str, l ≠ [] ∧ '.' ∉ l ∧ host = l ++ rest

/-- RFC 4513 section 3.1.3: the certificate names the host – by common name, by a DNS name, or by a DNS name whose left-most label is a wildcard
standing for exactly one label -/
def Names (host cn : Str) (sans : List (Str × Str)) : Prop :=
  host = cn ∨ (str "DNS", host) ∈ sans ∨ ∃ rest, (str "DNS", '*' :: '.' :: rest) ∈ sans ∧ OneLabel host ('.' :: rest)

end Laurelin.Spec

namespace Laurelin.Props
open Laurelin Spec
namespace Utils

theorem scan_iff (t pre : Str) (p : Nat) (hp : 0 < p) (hcount : pre.count '(' = pre.count ')' + p) (hne : pre ≠ []) (i : Nat) :
    parenScan p (pre.length - 1) t = some i ↔
      pre.length ≤ i ∧ i < (pre ++ t).length ∧ ((pre ++ t).take (i + 1)).count '(' = ((pre ++ t).take (i + 1)).count ')' ∧
      ∀ j, pre.length ≤ j → j ≤ i → ((pre ++ t).take j).count ')' < ((pre ++ t).take j).count '(' := by
  induction t generalizing pre p with
  | nil =>
    simp only [parenScan, List.append_nil]
    constructor
    · simp
    · rintro ⟨h1, h2, _⟩; omega
  | cons c t ih =>
    have hlen : pre.length ≠ 0 := by simpa using hne
    have htake : (pre ++ c :: t).take (pre.length + 1) = pre ++ [c] := by
      rw [List.take_append]; simp [List.take_of_length_le]
    have htake0 : (pre ++ c :: t).take pre.length = pre := by simp
    simp only [parenScan]
    generalize hp' : (if c = '(' then p + 1 else if c = ')' then p - 1 else p) = p'
    have hc' : (pre ++ [c]).count '(' = (pre ++ [c]).count ')' + p' := by
      simp only [List.count_append, List.count_singleton]
      by_cases h1 : c = '('
      · subst h1; simp at hp' ⊢; omega
      · by_cases h2 : c = ')'
        · subst h2; simp at hp' ⊢; omega
        · simp [h1, h2] at hp' ⊢; omega
    split
    · rename_i h0
      constructor
      · rintro h
        have hi : i = pre.length := by simp at h; omega
        subst hi
        refine ⟨Nat.le_refl _, by simp, ?_, ?_⟩
        · rw [htake]; omega
        · intro j h1 h2
          have : j = pre.length := by omega
          subst this
          rw [htake0]; omega
      · rintro ⟨h1, h2, h3, h4⟩
        by_cases hi : i = pre.length
        · simp [hi]; omega
        · have := h4 (pre.length + 1) (by omega) (by omega)
          rw [htake] at this
          omega
    · rename_i h0
      have hidx : pre.length - 1 + 1 = (pre ++ [c]).length - 1 := by simp; omega
      rw [hidx, ih (pre ++ [c]) p' (by omega) hc' (by simp)]
      simp only [List.append_assoc, List.singleton_append]
      constructor
      · rintro ⟨h1, h2, h3, h4⟩
        refine ⟨by simp at h1; omega, h2, h3, ?_⟩
        intro j hj1 hj2
        by_cases hj : j = pre.length
        · subst hj; rw [htake0]; omega
        · exact h4 j (by simp; omega) hj2
      · rintro ⟨h1, h2, h3, h4⟩
        refine ⟨?_, h2, h3, fun j hj1 hj2 => h4 j (by simp at hj1; omega) hj2⟩
        simp only [List.length_append, List.length_singleton]
        by_cases hi : i = pre.length
        · subst hi; rw [htake] at h3; omega
        · omega

end Utils
open Utils

/-- **C39.** The position returned is the first one where the depth is back to zero; -/
theorem c39_position (s : Str) (i : Nat) : findClosingParen s = .ok i ↔ Closes s i := by
  cases s with
  | nil => exact ⟨fun h => by simp [findClosingParen] at h, fun h => absurd h.opens (by simp)⟩
  | cons c t =>
    simp only [findClosingParen]
    split
    · rename_i h
      constructor
      · simp
      · intro hc; have := hc.opens; simp at this; exact absurd this h
    · rename_i h
      have h : c = '(' := by simpa using h
      subst h
      have := scan_iff t ['('] 1 (by decide) (by decide) (by simp) i
      simp only [List.length_singleton, Nat.sub_self, List.singleton_append] at this
      have key : findClosingParen ('(' :: t) = .ok i ↔ parenScan 1 0 t = some i := by
        simp only [findClosingParen]
        cases parenScan 1 0 t <;> simp
      simp only [findClosingParen, h, if_false] at key
      rw [key, this]
      constructor
      · rintro ⟨_, h2, h3, h4⟩
        exact ⟨rfl, h2, h3, h4⟩
      · intro hc
        refine ⟨?_, hc.inside, hc.balanced, hc.first⟩
        rcases Nat.eq_zero_or_pos i with rfl | h
        · have := hc.balanced; simp at this
        · exact h

/-- **C39.** `ValueError` is raised exactly when the text is not empty and no position closes its first character (in particular when
it does not start with a parenthesis). An empty text raises `IndexError`. -/
theorem c39_failure (s : Str) : (findClosingParen s = .error .valueError ↔ s ≠ [] ∧ ∀ i, ¬ Closes s i) ∧
    (findClosingParen s = .error .indexError ↔ s = []) := by
  have key : ∀ i, findClosingParen s = .ok i ↔ Closes s i := c39_position s
  cases hs : findClosingParen s with
  | ok i =>
    have := (key i).1 hs
    refine ⟨⟨by simp, fun h => absurd this (h.2 i)⟩, by simp, ?_⟩
    rintro rfl; simp [findClosingParen] at hs
  | error e =>
    have hno : ∀ i, ¬ Closes s i := fun i hc => by rw [(key i).2 hc] at hs; simp at hs
    cases s with
    | nil => simp [findClosingParen] at hs; subst hs; simp
    | cons c t =>
      have : e = .valueError := by
        simp only [findClosingParen] at hs
        split at hs
        · simp at hs; exact hs.symm
        · split at hs
          · simp at hs
          · simp at hs; exact hs.symm
      subst this
      simpa using hno

example : findClosingParen (str "(a(b)c)d") = .ok 6 ∧ findClosingParen (str "((a)") = .error .valueError := by decide
example : Closes (str "(a(b)c)d") 6 := (c39_position _ _).1 (by decide)

/-- **C40.** A phone number is accepted exactly when, ignoring everything but digits and plus signs, it is an optional plus followed by
7 to 15 digits. -/
theorem c40_accepts (s : Str) :
    validatePhone s = true ↔
      ∃ d : Str, (∀ c ∈ d, '0' ≤ c ∧ c ≤ '9') ∧ 7 ≤ d.length ∧ d.length ≤ 15 ∧
        (s.filter (fun c => ('0' ≤ c && c ≤ '9') || c == '+') = d ∨ s.filter (fun c => ('0' ≤ c && c ≤ '9') || c == '+') = '+' :: d) := by
  have hk : s.filter (fun c => ('0' ≤ c && c ≤ '9') || c == '+') = s.filter isPhoneChar := rfl
  rw [hk]
  have hall : ∀ c ∈ s.filter isPhoneChar, ('0' ≤ c ∧ c ≤ '9') ∨ c = '+' := by
    intro c hc
    have := (List.mem_filter.1 hc).2
    simp [isPhoneChar] at this
    exact this
  simp only [validatePhone]
  generalize s.filter isPhoneChar = t at hall
  have core : ∀ d : Str, (∀ c ∈ d, ('0' ≤ c ∧ c ≤ '9') ∨ c = '+') →
      ((if (d.isEmpty || d.any (· == '+')) = true then false else decide (7 ≤ d.length) && decide (d.length ≤ 15)) = true ↔
        (∀ c ∈ d, '0' ≤ c ∧ c ≤ '9') ∧ 7 ≤ d.length ∧ d.length ≤ 15) := by
    intro d hd
    by_cases hp : d.any (· == '+') = true
    · simp only [hp, Bool.or_true, if_true]
      simp only [List.any_eq_true, beq_iff_eq] at hp
      obtain ⟨c, hc, rfl⟩ := hp
      constructor
      · simp
      · rintro ⟨h, _⟩
        exact absurd (h _ hc) (by decide)
    · have hdig : ∀ c ∈ d, '0' ≤ c ∧ c ≤ '9' := by
        intro c hc
        rcases hd c hc with h | h
        · exact h
        · exact absurd (by simp; exact h ▸ hc) hp
      by_cases he : d = []
      · subst he; simp
      · have : d.isEmpty = false := by simp [he]
        simp only [this, Bool.false_or, hp]
        simp
        intro _ _ ; exact hdig
  cases t with
  | nil =>
    constructor
    · simp [startsWith]
    · rintro ⟨d, _, h, _, h2 | h2⟩
      · subst h2; simp at h
      · simp at h2
  | cons c t =>
    by_cases hc : c = '+'
    · subst hc
      have hsw : startsWith ('+' :: t) ['+'] = true := by simp [startsWith, List.isPrefixOf]
      simp only [hsw, if_true, List.drop_succ_cons, List.drop_zero]
      rw [core t (fun c h => hall c (by simp [h]))]
      constructor
      · rintro ⟨a, b, c⟩; exact ⟨t, a, b, c, .inr rfl⟩
      · rintro ⟨d, a, b, c, h | h⟩
        · subst h; exact absurd (a '+' (by simp)) (by decide)
        · simp at h; subst h; exact ⟨a, b, c⟩
    · have hsw : startsWith (c :: t) ['+'] = false := by simp [startsWith, List.isPrefixOf, Ne.symm hc]
      simp only [hsw]
      simp only [Bool.false_eq_true, if_false]
      rw [core _ hall]
      constructor
      · rintro ⟨a, b, c'⟩; exact ⟨c :: t, a, b, c', .inl rfl⟩
      · rintro ⟨d, a, b, c', h | h⟩
        · subst h; exact ⟨a, b, c'⟩
        · simp at h; exact absurd h.1 hc

/-- Punctuation never matters: numbers with the same digits and plus signs are accepted alike. -/
theorem c40_separators (s t : Str) (h : s.filter (fun c => ('0' ≤ c && c ≤ '9') || c == '+') = t.filter (fun c => ('0' ≤ c && c ≤ '9') || c == '+')) :
    validatePhone s = validatePhone t := by
  have := c40_accepts s
  rw [h, ← c40_accepts t] at this
  cases hs : validatePhone s <;> cases ht : validatePhone t <;> simp_all

example : validatePhone (str "+1 (555) 010-2030") = true ∧ validatePhone (str "555-010") = false ∧ validatePhone (str "1+5550102030") = false ∧
    validatePhone (str "++15550102030") = false := by decide

namespace Utils

theorem sanValid_iff (host : Str) (sans : List (Str × Str)) :
    sanValid host sans = true ↔ ∃ san ∈ sans, (if san.1 = str "DNS" && startsWith san.2 (str "*.") then endsWith host (san.2.drop 1) else host == san.2) = true := by
  induction sans with
  | nil => simp [sanValid]
  | cons x l ih =>
    obtain ⟨ty, v⟩ := x
    simp only [sanValid, List.mem_cons, exists_eq_or_imp]
    generalize (if ty = str "DNS" && startsWith v (str "*.") then endsWith host (v.drop 1) else host == v) = b
    cases b with
    | true => simp
    | false => simpa using ih

theorem starts_iff (v : Str) : startsWith v (str "*.") = true ↔ ∃ r, v = '*' :: '.' :: r := by
  simp only [startsWith, List.isPrefixOf_iff_prefix]
  constructor
  · rintro ⟨r, rfl⟩; exact ⟨r, rfl⟩
  · rintro ⟨r, rfl⟩; exact ⟨r, rfl⟩

end Utils

/-- **C41 (exactly what is accepted).** The common name or an alternative name of any type equals the host, or a DNS wildcard's suffix is a suffix of
the host – whatever, and however many labels, precede it. -/
theorem c41_exact (host cn : Str) (sans : List (Str × Str)) :
    checkHostname host cn sans = .ok () ↔
      host = cn ∨ (∃ ty, (ty, host) ∈ sans ∧ ¬ (ty = str "DNS" ∧ str "*." <+: host)) ∨
      ∃ rest, (str "DNS", '*' :: '.' :: rest) ∈ sans ∧ ∃ l, host = l ++ '.' :: rest := by
  simp only [checkHostname]
  split
  · rename_i h; simp [h]
  · rename_i hcn
    have hv := sanValid_iff host sans
    have : ((if sanValid host sans = true then Except.ok () else Except.error Err.connection) = Except.ok ()) ↔ sanValid host sans = true := by
      cases sanValid host sans <;> simp
    rw [this, hv]
    simp only [hcn, false_or]
    constructor
    · rintro ⟨⟨ty, v⟩, hm, hb⟩
      simp only at hb
      by_cases hw : (ty = str "DNS" && startsWith v (str "*.")) = true
      · rw [if_pos hw] at hb
        simp only [Bool.and_eq_true, decide_eq_true_eq] at hw
        obtain ⟨hty, hsw⟩ := hw
        obtain ⟨r, rfl⟩ := (starts_iff v).1 hsw
        subst hty
        right
        refine ⟨r, hm, ?_⟩
        simp only [endsWith, List.isSuffixOf_iff_suffix] at hb
        obtain ⟨l, hl⟩ := hb
        exact ⟨l, by simpa using hl.symm⟩
      · rw [if_neg hw] at hb
        simp only [beq_iff_eq] at hb
        subst hb
        left
        refine ⟨ty, hm, ?_⟩
        rintro ⟨h1, h2⟩
        apply hw
        simp [h1, startsWith, h2]
    · rintro (⟨ty, hm, hn⟩ | ⟨r, hm, l, hl⟩)
      · refine ⟨(ty, host), hm, ?_⟩
        have : ¬ (ty = str "DNS" && startsWith host (str "*.")) = true := by
          intro h
          simp only [Bool.and_eq_true, decide_eq_true_eq] at h
          exact hn ⟨h.1, by simpa [startsWith] using h.2⟩
        simp only [if_neg this, beq_self_eq_true]
      · refine ⟨_, hm, ?_⟩
        have : (str "DNS" = str "DNS" && startsWith ('*' :: '.' :: r) (str "*.")) = true := by
          simp only [decide_true, Bool.true_and]; exact (starts_iff _).2 ⟨r, rfl⟩
        rw [if_pos this]
        simp only [endsWith, List.isSuffixOf_iff_suffix]
        exact ⟨l, by simpa using hl.symm⟩

/-- **C41 (nothing wrongly refused).** A certificate naming the host is accepted (host names do not themselves start with a wildcard). -/
theorem c41_accepts (host cn : Str) (sans : List (Str × Str)) (hh : ¬ str "*." <+: host) (h : Names host cn sans) : checkHostname host cn sans = .ok () := by
  rw [c41_exact]
  rcases h with h | h | ⟨r, hr, l, _, _, hl⟩
  · exact .inl h
  · exact .inr (.inl ⟨_, h, fun x => hh x.2⟩)
  · exact .inr (.inr ⟨r, hr, l, hl⟩)

/-- **C41 (what an accepted certificate proves).** When all alternative names are DNS names, and the host is not more than one label below any
wildcard (and does not start with a dot), acceptance means that the certificate names the host.
The full claim is false: see `c41_wildcard_too_wide` and `c41_wildcard_empty_label`. -/
theorem c41_sound_partial (host cn : Str) (sans : List (Str × Str)) (hd : ∀ san ∈ sans, san.1 = str "DNS") (hdot : host.head? ≠ some '.')
    (hw : ∀ rest, (str "DNS", '*' :: '.' :: rest) ∈ sans → host.count '.' ≤ rest.count '.' + 1)
    (h : checkHostname host cn sans = .ok ()) : Names host cn sans := by
  rw [c41_exact] at h
  rcases h with h | ⟨ty, h, _⟩ | ⟨r, hr, l, hl⟩
  · exact .inl h
  · have := hd _ h
    simp only at this
    subst this
    exact .inr (.inl h)
  · refine .inr (.inr ⟨r, hr, l, ?_, ?_, hl⟩)
    · rintro rfl; simp [hl] at hdot
    · have := hw r hr
      rw [hl] at this
      simp at this
      exact List.count_eq_zero.1 (by omega)

/-- C41 is false: a wildcard is accepted for hosts any number of labels below it, for every domain. -/
theorem c41_wildcard_too_wide (a b rest cn : Str) : checkHostname (a ++ '.' :: (b ++ '.' :: rest)) cn [(str "DNS", '*' :: '.' :: rest)] = .ok () := by
  rw [c41_exact]
  exact .inr (.inr ⟨rest, by simp, a ++ '.' :: b, by simp⟩)

/-- ... and that is not what the certificate says -/
theorem c41_wildcard_too_wide' (a b rest cn : Str) (hcn : a ++ '.' :: (b ++ '.' :: rest) ≠ cn)
    (hstar : a ++ '.' :: (b ++ '.' :: rest) ≠ '*' :: '.' :: rest) : ¬ Names (a ++ '.' :: (b ++ '.' :: rest)) cn [(str "DNS", '*' :: '.' :: rest)] := by
  rintro (h | h | ⟨r, hm, l, _, hl, he⟩)
  · exact hcn h
  · simp at h; exact hstar (by simpa using h)
  · simp at hm
    subst hm
    have : (a ++ '.' :: b) ++ '.' :: r = l ++ '.' :: r := by simpa using he
    exact hl (List.append_cancel_right this ▸ by simp)

/-- ... also for the empty label. -/
theorem c41_wildcard_empty_label (rest cn : Str) : checkHostname ('.' :: rest) cn [(str "DNS", '*' :: '.' :: rest)] = .ok () := by
  rw [c41_exact]
  exact .inr (.inr ⟨rest, by simp, [], rfl⟩)

/-- C41: a certificate without a common name is refused with `KeyError`, whatever alternative names it has. -/
theorem c41_no_common_name (host : Str) (subject sans : List (Str × Str)) (h : ∀ p ∈ subject, p.1 ≠ str "commonName") :
    verifyCert host true subject sans = .error .keyError := by
  have : commonName subject = .error .keyError := by
    induction subject with
    | nil => rfl
    | cons p l ih =>
      obtain ⟨k, v⟩ := p
      have hk := h (k, v) (by simp)
      simp only [commonName, ih (fun p hp => h p (by simp [hp])), if_neg hk]
  simp [verifyCert, this]

/-- C41: with a common name and verification on, the certificate check is the host name check; with verification off, nothing is checked. -/
theorem c41_verify (host : Str) (subject sans : List (Str × Str)) :
    verifyCert host false subject sans = .ok () ∧
    ∀ cn, (∃ a b, subject = a ++ (str "commonName", cn) :: b ∧ ∀ p ∈ b, p.1 ≠ str "commonName") →
      verifyCert host true subject sans = checkHostname host cn sans := by
  refine ⟨rfl, ?_⟩
  rintro cn ⟨a, b, rfl, hb⟩
  have hb : commonName b = .error .keyError := by
    induction b with
    | nil => rfl
    | cons p l ih =>
      obtain ⟨k, v⟩ := p
      have hk := hb (k, v) (by simp)
      simp only [commonName, ih (fun p hp => hb p (by simp [hp])), if_neg hk]
  have : commonName (a ++ (str "commonName", cn) :: b) = .ok cn := by
    induction a with
    | nil => simp [commonName, hb]
    | cons p l ih => obtain ⟨k, v⟩ := p; simp [commonName, ih]
  simp [verifyCert, this]

example : checkHostname (str "a.b.example.org") (str "x") [(str "DNS", str "*.example.org")] = .ok () ∧
    ¬ Names (str "a.b.example.org") (str "x") [(str "DNS", str "*.example.org")] := by
  refine ⟨by decide, ?_⟩
  exact c41_wildcard_too_wide' (str "a") (str "b") (str "example.org") (str "x") (by decide) (by decide)
example : Names (str "ldap.example.org") (str "x") [(str "DNS", str "*.example.org")] :=
  .inr (.inr ⟨str "example.org", by decide, str "ldap", by decide, by decide, by decide⟩)

namespace Utils

theorem afterEq_dc (l : Str) (h : '=' ∉ l) : afterEq (str "dc=" ++ l) = .ok l := by
  have : pySplit '=' (str "dc=" ++ l) = [str "dc", l] := by
    have := split_app '=' (str "dc") l (by decide)
    rw [split_none '=' l h] at this
    exact this
  simp only [afterEq, this]

theorem mapM_afterEq (ls : List Str) (h : ∀ l ∈ ls, '=' ∉ l) : (ls.map (fun l => str "dc=" ++ l)).mapM afterEq = .ok ls := by
  induction ls with
  | nil => rfl
  | cons l ls ih =>
    rw [List.map_cons, List.mapM_cons, afterEq_dc l (h l (by simp)), ih (fun x hx => h x (by simp [hx]))]
    rfl

end Utils

/-- **C47.** `dc` gives one `dc=` component per label of the domain, in order. -/
theorem c47_components (labels : List Str) (hne : labels ≠ []) (h : ∀ l ∈ labels, '.' ∉ l) :
    dcOf (pyJoin ['.'] labels) = pyJoin [','] (labels.map (fun l => str "dc=" ++ l)) := by
  rw [dcOf, split_join '.' labels hne h]

/-- **C47.** `domain(dc(d)) = d` for every domain name. -/
theorem c47_round_trip (d : Str) (h : ',' ∉ d ∧ '=' ∉ d) : domainOf (dcOf d) = .ok d := by
  have hmem : ∀ l ∈ pySplit '.' d, ∀ c ∈ l, c ∈ d := by
    intro l hl c hc
    have : c ∈ pyJoin ['.'] (pySplit '.' d) := by
      clear h
      generalize pySplit '.' d = ls at hl
      induction ls with
      | nil => simp at hl
      | cons x ls ih =>
        cases ls with
        | nil => simp at hl; subst hl; simpa [pyJoin] using hc
        | cons y ls =>
          rw [pyJoin_cons _ _ _ (by simp)]
          rcases List.mem_cons.1 hl with rfl | hl
          · simp [hc]
          · simp [ih hl]
    rwa [join_split] at this
  have hc : pySplit ',' (dcOf d) = (pySplit '.' d).map (fun l => str "dc=" ++ l) := by
    apply split_join
    · simp [pySplit_ne_nil]
    · intro x hx
      obtain ⟨l, hl, rfl⟩ := List.mem_map.1 hx
      intro hin
      rcases List.mem_append.1 hin with hin | hin
      · exact absurd hin (by decide)
      · exact h.1 (hmem l hl _ hin)
  rw [domainOf, hc, mapM_afterEq _ (fun l hl hin => h.2 (hmem l hl _ hin))]
  show Except.ok (pyJoin ['.'] (pySplit '.' d)) = _
  rw [join_split]

/-- **C47.** and back: a DN made of `dc=` components is recovered from its domain. -/
theorem c47_round_trip_dn (labels : List Str) (hne : labels ≠ []) (h : ∀ l ∈ labels, '.' ∉ l ∧ ',' ∉ l ∧ '=' ∉ l) :
    domainOf (pyJoin [','] (labels.map (fun l => str "dc=" ++ l))) = .ok (pyJoin ['.'] labels) ∧
    dcOf (pyJoin ['.'] labels) = pyJoin [','] (labels.map (fun l => str "dc=" ++ l)) := by
  refine ⟨?_, c47_components labels hne (fun l hl => (h l hl).1)⟩
  rw [domainOf, split_join ',' _ (by simpa using hne)]
  · rw [mapM_afterEq _ (fun l hl => (h l hl).2.2)]; rfl
  · intro x hx
    obtain ⟨l, hl, rfl⟩ := List.mem_map.1 hx
    intro hin
    rcases List.mem_append.1 hin with hin | hin
    · exact absurd hin (by decide)
    · exact (h l hl).2.1 hin

example : dcOf (str "example.org") = str "dc=example,dc=org" ∧ domainOf (str "dc=example,dc=org") = .ok (str "example.org") := by decide

end Laurelin.Props
