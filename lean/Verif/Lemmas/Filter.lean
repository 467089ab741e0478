import Verif.Model.Filter
import Verif.Spec.Filter
/-! Lemmas about the filter recognisers. -/
namespace Laurelin
open Laurelin.Spec

/-! ### repetition -/

theorem starF_fuel {α} (p : Rec α) (n m : Nat) (s : Str) (hn : s.length ≤ n) (hm : s.length ≤ m) :
    starF p n s = starF p m s := by
  induction n generalizing m s with
  | zero =>
    have : s = [] := List.length_eq_zero_iff.mp (by omega)
    subst this
    cases m with
    | zero => rfl
    | succ m =>
      simp only [starF]
      split
      · rfl
      · simp
  | succ n ih =>
    cases m with
    | zero =>
      have : s = [] := List.length_eq_zero_iff.mp (by omega)
      subst this
      simp only [starF]
      split
      · rfl
      · simp
    | succ m =>
      simp only [starF]
      split
      · rfl
      · rename_i x r _
        by_cases h : r.length < s.length
        · rw [if_pos h, if_pos h, ih m r (by omega) (by omega)]
        · rw [if_neg h, if_neg h]

theorem star_unfold {α} (p : Rec α) (s : Str) :
    star p s = match p s with
      | none => ([], s)
      | some (x, r) => if r.length < s.length then (x :: (star p r).1, (star p r).2) else ([], s) := by
  unfold star
  rw [starF_fuel p s.length (s.length + 1) s (Nat.le_refl _) (by omega)]
  simp only [starF]
  cases p s with
  | none => rfl
  | some q =>
    obtain ⟨x, r⟩ := q
    simp only []
    by_cases h : r.length < s.length
    · rw [if_pos h, if_pos h, starF_fuel p s.length r.length r (by omega) (Nat.le_refl _)]
    · rw [if_neg h, if_neg h]

theorem star_none {α} (p : Rec α) (s : Str) (h : p s = none) : star p s = ([], s) := by
  rw [star_unfold, h]

theorem star_some {α} (p : Rec α) (s r : Str) (x : α) (h : p s = some (x, r)) (hl : r.length < s.length) :
    star p s = (x :: (star p r).1, (star p r).2) := by
  rw [star_unfold, h]; simp [hl]

theorem star_congr {α} (p q : Rec α) (s : Str) (h : ∀ r, r.length ≤ s.length → p r = q r) : star p s = star q s := by
  generalize hn : s.length = n
  induction n using Nat.strongRecOn generalizing s with
  | ind n ih =>
    rw [star_unfold p, star_unfold q, h s (Nat.le_refl _)]
    split
    · rfl
    · rename_i x r _
      by_cases hl : r.length < s.length
      · rw [if_pos hl, if_pos hl, ih r.length (by omega) r (fun t ht => h t (by omega)) rfl]
      · rw [if_neg hl, if_neg hl]

theorem star_length {α} (p : Rec α) (s : Str) : (star p s).2.length ≤ s.length := by
  generalize hn : s.length = n
  induction n using Nat.strongRecOn generalizing s with
  | ind n ih =>
    rw [star_unfold]
    split
    · simp [hn]
    · rename_i x r _
      by_cases hl : r.length < s.length
      · rw [if_pos hl]
        have := ih r.length (by omega) r rfl
        simp only; omega
      · rw [if_neg hl]; simp [hn]

/-- reading back a sequence of encodings -/
theorem star_complete {α} (p : Rec α) (enc : α → Str) (R : Str → Prop) (xs : List α) (e : Str)
    (henc : ∀ x ∈ xs, enc x ≠ []) (hp : ∀ x ∈ xs, ∀ r, R r → p (enc x ++ r) = some (x, r))
    (hR : ∀ x ∈ xs, ∀ r, R (enc x ++ r)) (hRe : R e) (he : p e = none) :
    star p ((xs.map enc).flatten ++ e) = (xs, e) := by
  induction xs with
  | nil => simpa using star_none p e he
  | cons x xs ih =>
    have ih' := ih (fun y hy => henc y (List.mem_cons_of_mem _ hy)) (fun y hy => hp y (List.mem_cons_of_mem _ hy))
      (fun y hy => hR y (List.mem_cons_of_mem _ hy))
    have hRr : R ((xs.map enc).flatten ++ e) := by
      cases xs with
      | nil => simpa using hRe
      | cons y ys =>
        simp only [List.map_cons, List.flatten_cons, List.append_assoc]
        exact hR y (by simp) _
    simp only [List.map_cons, List.flatten_cons, List.append_assoc]
    rw [star_some p _ _ x (hp x (by simp) _ hRr)]
    · rw [ih']
    · have := List.length_pos_iff.mpr (henc x (by simp))
      simp only [List.length_append]; omega

/-- what a repetition read -/
theorem star_sound {α} (p : Rec α) (enc : α → Str) (Q : α → Prop) (s r : Str) (xs : List α)
    (hp : ∀ s x r, p s = some (x, r) → s = enc x ++ r ∧ Q x) (h : star p s = (xs, r)) :
    s = (xs.map enc).flatten ++ r ∧ ∀ x ∈ xs, Q x := by
  generalize hn : s.length = n
  induction n using Nat.strongRecOn generalizing s xs with
  | ind n ih =>
    rw [star_unfold] at h
    split at h
    · cases h; simp
    · rename_i x r' hx
      split at h
      · rename_i hl
        cases h
        obtain ⟨h1, h2⟩ := hp s x r' hx
        obtain ⟨h3, h4⟩ := ih r'.length (by omega) r' _ rfl rfl
        constructor
        · rw [h1, List.map_cons, List.flatten_cons, List.append_assoc]
          congr 1
        · intro y hy
          rcases List.mem_cons.mp hy with h | h
          · subst h; exact h2
          · exact h4 y h
      · cases h; simp

/-- the element recogniser fails (or matches nothing) where a repetition stops -/
theorem star_stop {α} (p : Rec α) (s r : Str) (xs : List α) (hl : ∀ s x r, p s = some (x, r) → r.length < s.length)
    (h : star p s = (xs, r)) : p r = none := by
  generalize hn : s.length = n
  induction n using Nat.strongRecOn generalizing s xs with
  | ind n ih =>
    rw [star_unfold] at h
    split at h
    · cases h; assumption
    · rename_i x r' hx
      rw [if_pos (hl _ _ _ hx)] at h
      cases h
      exact ih r'.length (by have := hl _ _ _ hx; omega) r' _ rfl rfl

/-! ### literals -/

theorem kw_eq (w s r : Str) : kw w s = some r ↔ s = w ++ r := by
  induction w generalizing s with
  | nil => simp [kw, eq_comm]
  | cons c w ih =>
    cases s with
    | nil => simp [kw]
    | cons d s =>
      simp only [kw, List.cons_append, List.cons.injEq]
      by_cases h : c = d
      · subst h; simp [ih]
      · simp [h, Ne.symm h]

theorem kw_append (w r : Str) : kw w (w ++ r) = some r := (kw_eq _ _ _).mpr rfl

theorem kw_none (w s : Str) : kw w s = none ↔ ¬ w <+: s := by
  constructor
  · intro h ⟨t, ht⟩
    rw [← ht, kw_append] at h; cases h
  · intro h
    cases hk : kw w s with
    | none => rfl
    | some r => exact absurd ⟨r, ((kw_eq _ _ _).mp hk).symm⟩ h

/-! ### character classes -/

theorem isNormal_iff (c : Char) : isNormal c = true ↔ isPlain c := by
  simp [isNormal, isPlain]; grind

theorem isDigit_iff (c : Char) : c.isDigit = true ↔ isDig c := by
  simp [Char.isDigit, isDig, Char.le_def]

theorem isAlpha_iff (c : Char) : c.isAlpha = true ↔ isLetter c := by
  simp [Char.isAlpha, Char.isUpper, Char.isLower, isLetter, Char.le_def]; grind

theorem isKeychar_iff (c : Char) : isKeychar c = true ↔ isNameChar c := by
  simp only [isKeychar, isNameChar, Bool.or_eq_true, isAlpha_iff, isDigit_iff, beq_iff_eq, or_assoc]

theorem isHex_iff (c : Char) : isHex c = true ↔ isHexDig c := by
  simp only [isHex, isHexDig, Bool.or_eq_true, Bool.and_eq_true, decide_eq_true_eq, isDigit_iff]; grind

/-! ### values -/

theorem value_nil : value [] = ([], []) := rfl

theorem value_plain (c : Char) (t : Str) (h : isPlain c) : value (c :: t) = (c :: (value t).1, (value t).2) := by
  have hc : c ≠ '\\' := h.2.2.2.2
  have := (isNormal_iff c).mpr h
  rw [value.eq_3 _ _ (by intro _ _ _ e; exact absurd e hc)]
  simp [this]

theorem value_esc (h1 h2 : Char) (t : Str) (a : isHexDig h1) (b : isHexDig h2) :
    value ('\\' :: h1 :: h2 :: t) = ('\\' :: h1 :: h2 :: (value t).1, (value t).2) := by
  simp [value, (isHex_iff _).mpr a, (isHex_iff _).mpr b]

theorem value_stop (c : Char) (t : Str) (h : ¬ isPlain c) (hc : c ≠ '\\') : value (c :: t) = ([], c :: t) := by
  rw [value.eq_3 _ _ (by intro _ _ _ e; exact absurd e hc)]
  have : isNormal c = false := by
    cases hn : isNormal c with
    | false => rfl
    | true => exact absurd ((isNormal_iff c).mp hn) h
  simp [this]

theorem value_close (r : Str) : value (')' :: r) = ([], ')' :: r) := value_stop _ _ (by simp [isPlain]) (by decide)
theorem value_star (r : Str) : value ('*' :: r) = ([], '*' :: r) := value_stop _ _ (by simp [isPlain]) (by decide)

theorem value_complete (v r : Str) (hv : ValueText v) (hr : value r = ([], r)) : value (v ++ r) = (v, r) := by
  induction hv with
  | nil => simpa using hr
  | plain hc _ ih => rw [List.cons_append, value_plain _ _ hc, ih]
  | escaped a b _ ih => simp only [List.cons_append]; rw [value_esc _ _ _ a b, ih]

theorem value_sound (s : Str) : s = (value s).1 ++ (value s).2 ∧ ValueText (value s).1 ∧
    value (value s).2 = ([], (value s).2) := by
  induction s using value.induct with
  | case1 => exact ⟨rfl, .nil, rfl⟩
  | case2 h1 h2 t h ih =>
    rw [Bool.and_eq_true, isHex_iff, isHex_iff] at h
    rw [value_esc _ _ _ h.1 h.2]
    exact ⟨by simpa using ih.1, .escaped h.1 h.2 ih.2.1, ih.2.2⟩
  | case3 h1 h2 t h =>
    have : value ('\\' :: h1 :: h2 :: t) = ([], '\\' :: h1 :: h2 :: t) := by simp [value, h]
    rw [this]; exact ⟨rfl, .nil, this⟩
  | case4 c t hne h ih =>
    have hp := (isNormal_iff c).mp h
    rw [value_plain _ _ hp]
    exact ⟨by simpa using ih.1, .plain hp ih.2.1, ih.2.2⟩
  | case5 c t hne h =>
    have : value (c :: t) = ([], c :: t) := by rw [value.eq_3 _ _ hne]; simp [h]
    rw [this]; exact ⟨rfl, .nil, this⟩

theorem value_length (s : Str) : (value s).2.length ≤ s.length := by
  have := congrArg List.length (value_sound s).1
  simp only [List.length_append] at this; omega


/-! ### names -/

/-- the text does not go on with a character of the class -/
def Stops (P : Char → Bool) (r : Str) : Prop := ∀ c ∈ r.head?, P c = false

theorem takeWhile_stops (P : Char → Bool) (t r : Str) (ht : ∀ x ∈ t, P x = true) (hr : Stops P r) :
    (t ++ r).takeWhile P = t ∧ (t ++ r).dropWhile P = r := by
  rw [List.takeWhile_append_of_pos ht, List.dropWhile_append_of_pos ht]
  cases r with
  | nil => simp
  | cons c r =>
    have : P c = false := hr c (by simp)
    simp [this]

theorem takeWhile_all (P : Char → Bool) (t : Str) : ∀ x ∈ t.takeWhile P, P x = true :=
  List.all_eq_true.mp List.all_takeWhile

theorem dropWhile_stops (P : Char → Bool) (t : Str) : Stops P (t.dropWhile P) := by
  intro c hc
  have h := List.head?_dropWhile_not P t
  rw [hc] at h
  simpa using h

theorem descr_complete (d r : Str) (hd : Descr d) (hr : Stops isKeychar r) : descr (d ++ r) = some (d, r) := by
  obtain ⟨c, t, rfl, hc, ht⟩ := hd
  have := takeWhile_stops isKeychar t r (fun x hx => (isKeychar_iff x).mpr (ht x hx)) hr
  simp [descr, (isAlpha_iff c).mpr hc, this]

theorem descr_sound (s d r : Str) (h : descr s = some (d, r)) : s = d ++ r ∧ Descr d ∧ Stops isKeychar r := by
  cases s with
  | nil => simp [descr] at h
  | cons c t =>
    simp only [descr] at h
    split at h
    · rename_i hc
      cases h
      refine ⟨by simp [List.takeWhile_append_dropWhile], ⟨c, _, rfl, (isAlpha_iff c).mp hc, ?_⟩, dropWhile_stops _ _⟩
      intro x hx
      exact (isKeychar_iff x).mp (takeWhile_all isKeychar t x hx)
    · cases h

theorem number_eq (s n r : Str) : number s = some (n, r) ↔ ∃ c, isDig c ∧ s = c :: r ∧ n = [c] := by
  cases s with
  | nil => simp [number]
  | cons c t =>
    by_cases hc : c.isDigit = true
    · have := (isDigit_iff c).mp hc
      simp only [number, hc, if_true, Option.some.injEq, Prod.mk.injEq, List.cons.injEq]
      constructor
      · rintro ⟨rfl, rfl⟩; exact ⟨c, this, ⟨rfl, rfl⟩, rfl⟩
      · rintro ⟨d, _, ⟨rfl, rfl⟩, rfl⟩; exact ⟨rfl, rfl⟩
    · simp only [number, hc, Bool.false_and, Bool.false_eq_true, if_false]
      constructor
      · intro h; cases h
      · rintro ⟨d, hd, h, _⟩
        cases h
        exact absurd ((isDigit_iff c).mpr hd) hc

theorem dotNumber_eq (s n r : Str) : dotNumber s = some (n, r) ↔ ∃ c, isDig c ∧ s = '.' :: c :: r ∧ n = ['.', c] := by
  constructor
  · intro h
    unfold dotNumber at h
    split at h
    · rename_i t
      split at h
      · rename_i n' r' hn
        cases h
        obtain ⟨c, hc, rfl, rfl⟩ := (number_eq _ _ _).mp hn
        exact ⟨c, hc, rfl, rfl⟩
      · cases h
    · cases h
  · rintro ⟨c, hc, rfl, rfl⟩
    have : number (c :: r) = some ([c], r) := (number_eq _ _ _).mpr ⟨c, hc, rfl, rfl⟩
    simp [dotNumber, this]

theorem dotNumber_stops (r : Str) (h : Stops (· == '.') r) : dotNumber r = none := by
  cases hd : dotNumber r with
  | none => rfl
  | some q =>
    obtain ⟨n, r'⟩ := q
    obtain ⟨c, _, rfl, _⟩ := (dotNumber_eq _ _ _).mp hd
    have := h '.' (by simp)
    simp at this

theorem numericoid_complete (o r : Str) (ho : ShortOid o) (hr : Stops (· == '.') r) : numericoid (o ++ r) = some (o, r) := by
  obtain ⟨a, l, rfl, hl, ha, hls⟩ := ho
  have h1 : number (a :: ((l.map (fun b => ['.', b])).flatten ++ r)) = some ([a], (l.map (fun b => ['.', b])).flatten ++ r) :=
    (number_eq _ _ _).mpr ⟨a, ha, rfl, rfl⟩
  have h2 := star_complete dotNumber id (fun _ => True) (l.map (fun b => ['.', b])) r
    (by intro x hx; simp at hx; obtain ⟨b, _, rfl⟩ := hx; simp)
    (by intro x hx r' _; simp at hx; obtain ⟨b, hb, rfl⟩ := hx
        exact (dotNumber_eq _ _ _).mpr ⟨b, hls b hb, rfl, rfl⟩)
    (fun _ _ _ => trivial) trivial (dotNumber_stops r hr)
  simp only [List.map_id] at h2
  simp only [numericoid, List.cons_append, h1, h2]
  cases l with
  | nil => exact absurd rfl hl
  | cons b l => simp

theorem numericoid_sound (s o r : Str) (h : numericoid s = some (o, r)) : s = o ++ r ∧ ShortOid o := by
  unfold numericoid at h
  split at h
  · cases h
  · rename_i n r1 hn
    obtain ⟨a, ha, rfl, rfl⟩ := (number_eq _ _ _).mp hn
    split at h
    · cases h
    · rename_i l r' hne hst
      cases h
      obtain ⟨h1, h2⟩ := star_sound dotNumber id (fun x => ∃ c, isDig c ∧ x = ['.', c]) _ _ _
        (by intro s x r hx; obtain ⟨c, hc, rfl, rfl⟩ := (dotNumber_eq _ _ _).mp hx; exact ⟨rfl, c, hc, rfl⟩) hst
      simp only [List.map_id] at h1
      refine ⟨by simp [h1], ?_⟩
      have hl : ∃ cs : List Char, l = cs.map (fun b => ['.', b]) ∧ ∀ b ∈ cs, isDig b := by
        clear h1 hst hne hn
        induction l with
        | nil => exact ⟨[], rfl, by simp⟩
        | cons x l ih =>
          obtain ⟨cs, rfl, hcs⟩ := ih (fun y hy => h2 y (List.mem_cons_of_mem _ hy))
          obtain ⟨c, hc, rfl⟩ := h2 x (by simp)
          exact ⟨c :: cs, rfl, by simpa using ⟨hc, hcs⟩⟩
      obtain ⟨cs, rfl, hcs⟩ := hl
      refine ⟨a, cs, rfl, ?_, ha, hcs⟩
      rintro rfl
      exact hne rfl

/-- where an OID ends -/
def isOidChar (c : Char) : Bool := isKeychar c || c == '.'

theorem Stops.mono {P Q : Char → Bool} {r : Str} (h : Stops P r) (hPQ : ∀ c, Q c = true → P c = true) : Stops Q r := by
  intro c hc
  have := h c hc
  cases hq : Q c with
  | false => rfl
  | true => rw [hPQ c hq] at this; cases this

theorem digit_not_letter (c : Char) (h : isDig c) : c.isAlpha = false := by
  cases ha : c.isAlpha with
  | false => rfl
  | true =>
    have := (isAlpha_iff c).mp ha
    simp only [isDig, isLetter, Char.le_def] at *
    simp only [UInt32.le_iff_toNat_le] at *
    simp at *
    omega

theorem oid_complete (o r : Str) (ho : OidText o) (hr : Stops isOidChar r) : oid (o ++ r) = some (o, r) := by
  have hk : Stops isKeychar r := hr.mono (by intro c h; simp [isOidChar, h])
  have hd : Stops (· == '.') r := hr.mono (by intro c h; simp [isOidChar]; simp at h; simp [h])
  rcases ho with ho | ho
  · simp [oid, descr_complete o r ho hk]
  · have h1 := numericoid_complete o r ho hd
    obtain ⟨a, l, rfl, hl, ha, hls⟩ := ho
    have : descr (a :: ((l.map (fun b => ['.', b])).flatten ++ r)) = none := by
      simp [descr, digit_not_letter a ha]
    simp only [List.cons_append] at *
    simp [oid, this, h1]

theorem oid_sound (s o r : Str) (h : oid s = some (o, r)) : s = o ++ r ∧ OidText o := by
  unfold oid at h
  cases hd : descr s with
  | some q =>
    obtain ⟨d, r'⟩ := q
    rw [hd] at h; cases h
    exact ⟨(descr_sound _ _ _ hd).1, .inl (descr_sound _ _ _ hd).2.1⟩
  | none =>
    rw [hd] at h
    exact ⟨(numericoid_sound _ _ _ h).1, .inr (numericoid_sound _ _ _ h).2⟩

theorem semiOption_complete (o r : Str) (ho : o ≠ [] ∧ ∀ x ∈ o, isNameChar x) (hr : Stops isKeychar r) :
    semiOption (';' :: o ++ r) = some (';' :: o, r) := by
  have := takeWhile_stops isKeychar o r (fun x hx => (isKeychar_iff x).mpr (ho.2 x hx)) hr
  simp only [semiOption, List.cons_append, this.1, this.2]
  cases o with
  | nil => exact absurd rfl ho.1
  | cons _ _ => rfl

theorem semiOption_sound (s x r : Str) (h : semiOption s = some (x, r)) :
    s = x ++ r ∧ ∃ o, x = ';' :: o ∧ o ≠ [] ∧ ∀ c ∈ o, isNameChar c := by
  unfold semiOption at h
  split at h
  · rename_i t
    split at h
    · cases h
    · rename_i o hne
      cases h
      refine ⟨by simp [List.takeWhile_append_dropWhile], _, rfl, hne, ?_⟩
      intro c hc
      exact (isKeychar_iff c).mp (takeWhile_all isKeychar t c hc)
  · cases h

/-- where an attribute description ends -/
def isAttrChar (c : Char) : Bool := isKeychar c || c == '.' || c == ';'

theorem attrP_complete (a r : Str) (ha : AttrText a) (hr : Stops isAttrChar r) : attrP (a ++ r) = some (a, r) := by
  obtain ⟨o, opts, rfl, ho, hopts⟩ := ha
  have hk : Stops isKeychar r := hr.mono (by intro c h; simp [isAttrChar, h])
  have ho' : Stops isOidChar r := hr.mono (by intro c h; simp only [isOidChar, isAttrChar] at *; simp [h])
  have hs : semiOption r = none := by
    cases hso : semiOption r with
    | none => rfl
    | some q =>
      obtain ⟨h1, o', h2, _⟩ := semiOption_sound _ q.1 q.2 hso
      rw [h2] at h1
      have := hr ';' (by rw [h1]; simp)
      simp [isAttrChar] at this
  have hR : ∀ x ∈ opts, ∀ r' : Str, Stops isKeychar (';' :: x ++ r') := by
    intro x _ r' c hc; simp at hc; subst hc; decide
  have h2 := star_complete semiOption id (Stops isKeychar) (opts.map (fun p => ';' :: p)) r
    (by intro x hx; simp at hx; obtain ⟨b, _, rfl⟩ := hx; simp)
    (by intro x hx r' hr'; simp at hx; obtain ⟨b, hb, rfl⟩ := hx
        exact semiOption_complete b r' (hopts b hb) hr')
    (by intro x hx r'; simp at hx; obtain ⟨b, hb, rfl⟩ := hx; exact hR b hb r') hk hs
  simp only [List.map_id] at h2
  have h1 : oid (o ++ ((opts.map (fun p => ';' :: p)).flatten ++ r)) = some (o, (opts.map (fun p => ';' :: p)).flatten ++ r) := by
    apply oid_complete o _ ho
    cases opts with
    | nil => simpa using ho'
    | cons x opts => intro c hc; simp at hc; subst hc; decide
  simp only [attrP, List.append_assoc, h1, h2]

theorem optionList (l : List Str) (h4 : ∀ x ∈ l, ∃ o, x = ';' :: o ∧ o ≠ [] ∧ ∀ c ∈ o, isNameChar c) :
    ∃ cs : List Str, l = cs.map (fun p => ';' :: p) ∧ ∀ p ∈ cs, p ≠ [] ∧ ∀ x ∈ p, isNameChar x := by
  induction l with
  | nil => exact ⟨[], rfl, by simp⟩
  | cons x l ih =>
    obtain ⟨cs, rfl, hcs⟩ := ih (fun y hy => h4 y (List.mem_cons_of_mem _ hy))
    obtain ⟨o, rfl, hc⟩ := h4 x (by simp)
    exact ⟨o :: cs, rfl, by
      intro p hp
      rcases List.mem_cons.mp hp with h | h
      · subst h; exact hc
      · exact hcs p h⟩

theorem attrP_sound (s a r : Str) (h : attrP s = some (a, r)) : s = a ++ r ∧ AttrText a := by
  unfold attrP at h
  split at h
  · cases h
  · rename_i o r1 ho
    cases h
    obtain ⟨h1, h2⟩ := oid_sound _ _ _ ho
    obtain ⟨h3, h4⟩ := star_sound semiOption id (fun x => ∃ o, x = ';' :: o ∧ o ≠ [] ∧ ∀ c ∈ o, isNameChar c) r1
      (star semiOption r1).2 (star semiOption r1).1
      (fun s x r hx => semiOption_sound s x r hx) rfl
    simp only [List.map_id] at h3
    refine ⟨by rw [h1, List.append_assoc]; congr 1, ?_⟩
    have hl := optionList _ h4
    obtain ⟨cs, hcs, hcs'⟩ := hl
    exact ⟨o, cs, by rw [hcs], h2, hcs'⟩

theorem _root_.Laurelin.Spec.AttrText.ne_nil {a : Str} (h : AttrText a) : a ≠ [] := by
  obtain ⟨o, opts, rfl, ho, _⟩ := h
  rcases ho with ⟨c, t, rfl, _⟩ | ⟨c, t, rfl, _⟩ <;> simp

theorem _root_.Laurelin.Spec.OidText.ne_nil {a : Str} (h : OidText a) : a ≠ [] := by
  rcases h with ⟨c, t, rfl, _⟩ | ⟨c, t, rfl, _⟩ <;> simp


/-! ### comparisons -/

def FType.text : FType → Str
  | .approx => str "~=" | .greaterorequal => str ">=" | .lessorequal => str "<=" | .equals => str "="

def AvaNode.text : AvaNode → Str
  | .substring a i anys f => a ++ str "=" ++ i ++ str "*" ++ (anys.map (· ++ str "*")).flatten ++ f
  | .simple a ft v => a ++ ft.text ++ v
  | .ext6 a d m v => a ++ d ++ m ++ str ":=" ++ v
  | .ext5 d m v => d ++ m ++ str ":=" ++ v

def DnText (d : Str) : Prop := d = [] ∨ d = str ":dn"
def RuleText (m : Str) : Prop := ∃ o, m = ':' :: o ∧ OidText o

def AvaNode.Ok : AvaNode → Prop
  | .substring a i anys f => AttrText a ∧ ValueText i ∧ (∀ x ∈ anys, ValueText x) ∧ ValueText f
  | .simple a _ v => AttrText a ∧ ValueText v
  | .ext6 a d m v => AttrText a ∧ DnText d ∧ (m = [] ∨ RuleText m) ∧ (d = [] → ¬ str ":dn" <+: m) ∧ ValueText v
  | .ext5 d m v => DnText d ∧ RuleText m ∧ (d = [] → ¬ str ":dn" <+: m) ∧ ValueText v

theorem filtertype_complete (ft : FType) (r : Str) : filtertype (ft.text ++ r) = some (ft, r) := by
  cases ft <;> simp [filtertype, FType.text, kw]

theorem filtertype_sound (s r : Str) (ft : FType) (h : filtertype s = some (ft, r)) : s = ft.text ++ r := by
  unfold filtertype at h
  repeat' split at h
  all_goals first | (cases h; rename_i hk; exact (kw_eq _ _ _).mp hk) | cases h

theorem attr_op (a r : Str) (c : Char) (ha : AttrText a) (hc : isAttrChar c = false) : attrP (a ++ c :: r) = some (a, c :: r) :=
  attrP_complete a _ ha (by intro x hx; simp at hx; subst hx; exact hc)

theorem valueStar_complete (v r : Str) (hv : ValueText v) : valueStar ((v ++ str "*") ++ r) = some (v, r) := by
  have := value_complete v ('*' :: r) hv (value_star r)
  simp [valueStar, this]

theorem valueStar_sound (s v r : Str) (h : valueStar s = some (v, r)) : s = (v ++ str "*") ++ r ∧ ValueText v := by
  unfold valueStar at h
  split at h
  · rename_i v' r' hv
    cases h
    have := value_sound s
    rw [hv] at this
    exact ⟨by simpa using this.1, this.2.1⟩
  · cases h

theorem valueStar_close (f r : Str) (hf : ValueText f) : valueStar (f ++ ')' :: r) = none := by
  simp [valueStar, value_complete f (')' :: r) hf (value_close r)]

theorem anys_complete (anys : List Str) (f r : Str) (h : ∀ x ∈ anys, ValueText x) (hf : ValueText f) :
    star valueStar ((anys.map (· ++ str "*")).flatten ++ (f ++ ')' :: r)) = (anys, f ++ ')' :: r) :=
  star_complete valueStar (· ++ str "*") (fun _ => True) anys _ (by intro x _; simp) (fun x hx r' _ => valueStar_complete x r' (h x hx))
    (fun _ _ _ => trivial) trivial (valueStar_close f r hf)

theorem oid_colon (t : Str) : oid (':' :: t) = none := by simp [oid, descr, numericoid, number]

theorem oid_eq (t : Str) : oid ('=' :: t) = none := by simp [oid, descr, numericoid, number]

theorem attrP_colon (t : Str) : attrP (':' :: t) = none := by simp [attrP, oid_colon]

theorem dnOpt_complete (d m r : Str) (hd : DnText d) (hm : m = [] ∨ RuleText m) (hn : d = [] → ¬ str ":dn" <+: m) :
    dnattrsOpt (d ++ (m ++ (str ":=" ++ r))) = (d, m ++ (str ":=" ++ r)) := by
  rcases hd with rfl | rfl
  · have : kw (str ":dn") (m ++ (str ":=" ++ r)) = none := by
      rw [kw_none]
      rintro ⟨t, ht⟩
      rcases hm with rfl | ⟨o, rfl, ho⟩
      · simp at ht
      · have h1 := hn rfl
        cases o with
        | nil => simp at ht
        | cons c o =>
          cases o with
          | nil => simp at ht
          | cons c' o =>
            simp at ht
            apply h1
            exact ⟨o, by rw [← ht.1, ← ht.2.1]; rfl⟩
    simp only [List.nil_append, dnattrsOpt, this]
  · have : kw (str ":dn") (str ":dn" ++ (m ++ (str ":=" ++ r))) = some (m ++ (str ":=" ++ r)) := kw_append _ _
    simp only [dnattrsOpt, this]

theorem dnOpt_sound (s : Str) : s = (dnattrsOpt s).1 ++ (dnattrsOpt s).2 ∧ DnText (dnattrsOpt s).1 ∧
    ((dnattrsOpt s).1 = [] → ¬ str ":dn" <+: (dnattrsOpt s).2) := by
  unfold dnattrsOpt
  split
  · rename_i r h
    exact ⟨(kw_eq _ _ _).mp h, .inr rfl, by simp⟩
  · rename_i h
    exact ⟨rfl, .inl rfl, fun _ => (kw_none _ _).mp h⟩

theorem rule_complete (m r : Str) (hm : RuleText m) : matchingrule (m ++ (str ":=" ++ r)) = some (m, str ":=" ++ r) := by
  obtain ⟨o, rfl, ho⟩ := hm
  have : oid (o ++ (str ":=" ++ r)) = some (o, str ":=" ++ r) :=
    oid_complete o _ ho (by intro c hc; simp at hc; subst hc; decide)
  simp only [List.cons_append, matchingrule]
  simp only [List.cons_append] at this
  rw [this]

theorem rule_sound (s m r : Str) (h : matchingrule s = some (m, r)) : s = m ++ r ∧ RuleText m := by
  unfold matchingrule at h
  split at h
  · split at h
    · rename_i o r' ho
      cases h
      obtain ⟨h1, h2⟩ := oid_sound _ _ _ ho
      exact ⟨by simp [h1], o, rfl, h2⟩
    · cases h
  · cases h

theorem ruleOpt_complete (m r : Str) (hm : m = [] ∨ RuleText m) :
    (matchingrule (m ++ (str ":=" ++ r))).getD ([], m ++ (str ":=" ++ r)) = (m, str ":=" ++ r) := by
  rcases hm with rfl | hm
  · have : matchingrule (str ":=" ++ r) = none := by
      simp only [List.cons_append, List.nil_append, matchingrule, oid_eq]
    simp only [List.nil_append, this, Option.getD_none]
  · rw [rule_complete m r hm]; rfl

theorem ruleOpt_sound (s : Str) : s = ((matchingrule s).getD ([], s)).1 ++ ((matchingrule s).getD ([], s)).2 ∧
    (((matchingrule s).getD ([], s)).1 = [] ∨ RuleText ((matchingrule s).getD ([], s)).1) := by
  cases h : matchingrule s with
  | none => simp
  | some q =>
    obtain ⟨h1, h2⟩ := rule_sound s q.1 q.2 h
    exact ⟨h1, .inr h2⟩

theorem avaP_complete (n : AvaNode) (r : Str) (h : n.Ok) : avaP (n.text ++ ')' :: r) = some (n, ')' :: r) := by
  cases n with
  | substring a i anys f =>
    obtain ⟨ha, hi, hanys, hf⟩ := h
    have h1 := attr_op a (i ++ '*' :: ((anys.map (· ++ str "*")).flatten ++ (f ++ ')' :: r))) '=' ha (by decide)
    have h2 := value_complete i ('*' :: ((anys.map (· ++ str "*")).flatten ++ (f ++ ')' :: r))) hi (value_star _)
    have h3 := anys_complete anys f r hanys hf
    have h4 := value_complete f (')' :: r) hf (value_close r)
    simp only [avaP, substringP, AvaNode.text, List.append_assoc, List.cons_append, List.nil_append, h1, kw, if_true, h2, h3, h4,
      Option.orElse]
  | simple a ft v =>
    obtain ⟨ha, hv⟩ := h
    have h4 := value_complete v (')' :: r) hv (value_close r)
    have h1 : attrP (a ++ (ft.text ++ (v ++ ')' :: r))) = some (a, ft.text ++ (v ++ ')' :: r)) := by
      cases ft <;> exact attr_op a _ _ ha (by decide)
    have h2 : substringP (a ++ (ft.text ++ (v ++ ')' :: r))) = none := by
      simp only [substringP, h1]
      cases ft <;> simp [FType.text, kw, h4]
    have h3 : simpleP (a ++ (ft.text ++ (v ++ ')' :: r))) = some (.simple a ft v, ')' :: r) := by
      simp only [simpleP, h1, filtertype_complete, h4]
    simp only [avaP, AvaNode.text, List.append_assoc, h2, h3, Option.orElse]
  | ext6 a d m v =>
    obtain ⟨ha, hd, hm, hn, hv⟩ := h
    have h4 := value_complete v (')' :: r) hv (value_close r)
    have hhead : ∃ t, d ++ (m ++ (str ":=" ++ (v ++ ')' :: r))) = ':' :: t := by
      rcases hd with rfl | rfl
      · rcases hm with rfl | ⟨o, rfl, _⟩
        · exact ⟨_, rfl⟩
        · exact ⟨_, rfl⟩
      · exact ⟨_, rfl⟩
    obtain ⟨t, ht⟩ := hhead
    have h1 : attrP (a ++ (d ++ (m ++ (str ":=" ++ (v ++ ')' :: r))))) = some (a, d ++ (m ++ (str ":=" ++ (v ++ ')' :: r)))) := by
      rw [ht]; exact attr_op a _ _ ha (by decide)
    have h2 : substringP (a ++ (d ++ (m ++ (str ":=" ++ (v ++ ')' :: r))))) = none := by
      rw [substringP, h1, ht]; simp [kw]
    have h3 : simpleP (a ++ (d ++ (m ++ (str ":=" ++ (v ++ ')' :: r))))) = none := by
      rw [simpleP, h1, ht]; simp [filtertype, kw]
    have h5 := dnOpt_complete d m (v ++ ')' :: r) hd hm hn
    have h6 := ruleOpt_complete m (v ++ ')' :: r) hm
    have h7 : kw (str ":=") (str ":=" ++ (v ++ ')' :: r)) = some (v ++ ')' :: r) := kw_append _ _
    simp only [avaP, AvaNode.text, List.append_assoc, h2, h3, Option.orElse, extensibleP, h1, h5, h6, h7, h4]
  | ext5 d m v =>
    obtain ⟨hd, hm, hn, hv⟩ := h
    have h4 := value_complete v (')' :: r) hv (value_close r)
    have hhead : ∃ t, d ++ (m ++ (str ":=" ++ (v ++ ')' :: r))) = ':' :: t := by
      rcases hd with rfl | rfl
      · obtain ⟨o, rfl, _⟩ := hm; exact ⟨_, rfl⟩
      · exact ⟨_, rfl⟩
    obtain ⟨t, ht⟩ := hhead
    have h1 : attrP (d ++ (m ++ (str ":=" ++ (v ++ ')' :: r)))) = none := by rw [ht, attrP_colon]
    have h5 := dnOpt_complete d m (v ++ ')' :: r) hd (.inr hm) hn
    have h6 := rule_complete m (v ++ ')' :: r) hm
    have h7 : kw (str ":=") (str ":=" ++ (v ++ ')' :: r)) = some (v ++ ')' :: r) := kw_append _ _
    simp only [avaP, AvaNode.text, List.append_assoc, substringP, simpleP, h1, Option.orElse, extensibleP, h5, h6, h7, h4]

theorem prefix_left {a b c : Str} (h : a <+: b) : a <+: b ++ c := h.trans (List.prefix_append _ _)

theorem avaP_sound (s r : Str) (n : AvaNode) (h : avaP s = some (n, r)) : s = n.text ++ r ∧ n.Ok := by
  unfold avaP at h
  cases hsub : substringP s with
  | some q =>
    rw [hsub] at h; cases h
    unfold substringP at hsub
    split at hsub
    · cases hsub
    · rename_i a r1 ha
      obtain ⟨e1, ha'⟩ := attrP_sound _ _ _ ha
      split at hsub
      · cases hsub
      · rename_i r2 hk
        have e2 := (kw_eq _ _ _).mp hk
        split at hsub
        · rename_i i r3 hi
          cases hsub
          have hv := value_sound r2
          rw [hi] at hv
          have hst := star_sound valueStar (· ++ str "*") ValueText r3 (star valueStar r3).2 (star valueStar r3).1
            (fun s x r hx => valueStar_sound s x r hx) rfl
          have hf := value_sound (star valueStar r3).2
          refine ⟨?_, ha', hv.2.1, hst.2, hf.2.1⟩
          rw [e1, e2, hv.1]
          simp only [AvaNode.text, List.append_assoc, List.cons_append, List.nil_append]
          congr 4
          rw [← hf.1, ← hst.1]
        · cases hsub
  | none =>
    rw [hsub] at h
    cases hsim : simpleP s with
    | some q =>
      rw [hsim] at h; cases h
      unfold simpleP at hsim
      split at hsim
      · cases hsim
      · rename_i a r1 ha
        obtain ⟨e1, ha'⟩ := attrP_sound _ _ _ ha
        split at hsim
        · cases hsim
        · rename_i ft r2 hft
          cases hsim
          have e2 := filtertype_sound _ _ _ hft
          have hv := value_sound r2
          refine ⟨?_, ha', hv.2.1⟩
          rw [e1, e2]
          simp only [AvaNode.text, List.append_assoc]
          rw [← hv.1]
    | none =>
      rw [hsim] at h
      simp only [Option.orElse, extensibleP] at h
      split at h
      · rename_i q halt
        cases h
        split at halt
        · cases halt
        · rename_i a r1 ha
          obtain ⟨e1, ha'⟩ := attrP_sound _ _ _ ha
          split at halt
          · cases halt
          · rename_i r2 hk
            cases halt
            have hd := dnOpt_sound r1
            have hm := ruleOpt_sound (dnattrsOpt r1).2
            have e2 := (kw_eq _ _ _).mp hk
            have hv := value_sound r2
            refine ⟨?_, ha', hd.2.1, hm.2, ?_, hv.2.1⟩
            · simp only [AvaNode.text, List.append_assoc]
              rw [← hv.1, ← e2, ← hm.1, ← hd.1]
              exact e1
            · intro h1 h2
              apply hd.2.2 h1
              rw [hm.1]; exact prefix_left h2
      · split at h
        · cases h
        · rename_i m r1 hm
          split at h
          · cases h
          · rename_i r2 hk
            cases h
            have hd := dnOpt_sound s
            have hm' := rule_sound _ _ _ hm
            have e2 := (kw_eq _ _ _).mp hk
            have hv := value_sound r2
            refine ⟨?_, hd.2.1, hm'.2, ?_, hv.2.1⟩
            · simp only [AvaNode.text, List.append_assoc]
              rw [← hv.1, ← e2, ← hm'.1, ← hd.1]
            · intro h1 h2
              apply hd.2.2 h1
              rw [hm'.1]; exact prefix_left h2


theorem optText_some (s : Str) (h : s ≠ []) : optText s = some s := by simp [optText, h]

/-- the comparisons of the grammar are the comparisons of the specification -/
theorem ava_iff (t : Str) (f : Filter) : AvaText t f ↔ ∃ n : AvaNode, n.Ok ∧ n.text = t ∧ handleAva n = f := by
  constructor
  · intro h
    cases h with
    | @equality a v ha hv => exact ⟨.simple a .equals v, ⟨ha, hv⟩, rfl, rfl⟩
    | @approx a v ha hv => exact ⟨.simple a .approx v, ⟨ha, hv⟩, rfl, rfl⟩
    | @greaterOrEqual a v ha hv => exact ⟨.simple a .greaterorequal v, ⟨ha, hv⟩, rfl, rfl⟩
    | @lessOrEqual a v ha hv => exact ⟨.simple a .lessorequal v, ⟨ha, hv⟩, rfl, rfl⟩
    | @present a ha => exact ⟨.substring a [] [] [], ⟨ha, .nil, by simp, .nil⟩, by simp [AvaNode.text], by simp [handleAva]⟩
    | @substrings a i f anys ha hi hanys hf hne =>
      refine ⟨.substring a i anys f, ⟨ha, hi, hanys, hf⟩, rfl, ?_⟩
      simp only [handleAva, if_neg hne, ite_not]
      congr 3
      cases anys <;> simp
    | @extensible rule attr v dn hor ha hr hdn hv =>
      have hd : DnText (if dn then str ":dn" else []) := by cases dn <;> simp [DnText]
      have hdnb : ((if dn then str ":dn" else []) == str ":dn") = dn := by cases dn <;> decide
      have hpre : ∀ r, r ∈ rule → ((if dn then str ":dn" else []) = ([] : Str) → ¬ str ":dn" <+: ':' :: r) := by
        intro r hr' he ⟨t, ht⟩
        have hf : dn = false := by cases dn with
          | false => rfl
          | true => simp at he
        apply hdn hf r hr'
        simp at ht
        exact ⟨t, by simpa using ht⟩
      cases attr with
      | some a =>
        have ha' := ha a rfl
        cases rule with
        | none =>
          refine ⟨.ext6 a (if dn then str ":dn" else []) [] v, ⟨ha', hd, .inl rfl, by simp, hv⟩, by simp [AvaNode.text], ?_⟩
          simp only [handleAva, hdnb, optText_some a ha'.ne_nil, List.drop_nil]
          rfl
        | some r =>
          have hr' := hr r rfl
          refine ⟨.ext6 a (if dn then str ":dn" else []) (':' :: r) v, ⟨ha', hd, .inr ⟨r, rfl, hr'⟩, hpre r rfl, hv⟩,
            by simp [AvaNode.text], ?_⟩
          simp only [handleAva, hdnb, optText_some a ha'.ne_nil, List.drop_succ_cons, List.drop_zero, optText_some r hr'.ne_nil]
      | none =>
        cases rule with
        | none => simp at hor
        | some r =>
          have hr' := hr r rfl
          refine ⟨.ext5 (if dn then str ":dn" else []) (':' :: r) v, ⟨hd, ⟨r, rfl, hr'⟩, hpre r rfl, hv⟩, by simp [AvaNode.text], ?_⟩
          simp only [handleAva, hdnb, List.drop_succ_cons, List.drop_zero, optText_some r hr'.ne_nil]
  · rintro ⟨n, hok, rfl, rfl⟩
    cases n with
    | simple a ft v =>
      cases ft
      · exact .approx hok.1 hok.2
      · exact .greaterOrEqual hok.1 hok.2
      · exact .lessOrEqual hok.1 hok.2
      · exact .equality hok.1 hok.2
    | substring a i anys f =>
      by_cases h : i = [] ∧ anys = [] ∧ f = []
      · obtain ⟨rfl, rfl, rfl⟩ := h
        have := AvaText.present hok.1
        simpa [AvaNode.text, handleAva] using this
      · have := AvaText.substrings hok.1 hok.2.1 hok.2.2.1 hok.2.2.2 h
        have he : handleAva (.substring a i anys f) = .substrings a ((if i = [] then [] else [.initial i]) ++ anys.map .any ++
            (if f = [] then [] else [.final f])) := by
          simp only [handleAva, if_neg h, ite_not]
          congr 3
          cases anys <;> simp
        rw [he]; exact this
    | ext6 a d m v =>
      obtain ⟨ha, hd, hm, hpre, hv⟩ := hok
      have hdd : ∃ dn : Bool, d = (if dn then str ":dn" else []) := by
        rcases hd with rfl | rfl
        · exact ⟨false, rfl⟩
        · exact ⟨true, rfl⟩
      obtain ⟨dn, rfl⟩ := hdd
      have hdnb : ((if dn then str ":dn" else []) == str ":dn") = dn := by cases dn <;> decide
      rcases hm with rfl | ⟨o, rfl, ho⟩
      · have := AvaText.extensible (rule := none) (attr := some a) (v := v) (dn := dn) (.inr (by simp)) (by simpa using ha) (by simp)
          (by simp) hv
        have he : handleAva (.ext6 a (if dn then str ":dn" else []) [] v) = .extensible none (some a) v dn := by
          simp only [handleAva, hdnb, optText_some a ha.ne_nil, List.drop_nil]
          rfl
        rw [he]
        simpa [AvaNode.text] using this
      · have := AvaText.extensible (rule := some o) (attr := some a) (v := v) (dn := dn) (.inr (by simp)) (by simpa using ha)
          (by simpa using ho) (by
            intro hf r hr ⟨t, ht⟩
            simp at hr; subst hr
            subst hf
            exact hpre rfl ⟨t, by simp [← ht]⟩) hv
        have he : handleAva (.ext6 a (if dn then str ":dn" else []) (':' :: o) v) = .extensible (some o) (some a) v dn := by
          simp only [handleAva, hdnb, optText_some a ha.ne_nil, List.drop_succ_cons, List.drop_zero, optText_some o ho.ne_nil]
        rw [he]
        simpa [AvaNode.text] using this
    | ext5 d m v =>
      obtain ⟨hd, ⟨o, rfl, ho⟩, hpre, hv⟩ := hok
      have hdd : ∃ dn : Bool, d = (if dn then str ":dn" else []) := by
        rcases hd with rfl | rfl
        · exact ⟨false, rfl⟩
        · exact ⟨true, rfl⟩
      obtain ⟨dn, rfl⟩ := hdd
      have hdnb : ((if dn then str ":dn" else []) == str ":dn") = dn := by cases dn <;> decide
      have := AvaText.extensible (rule := some o) (attr := none) (v := v) (dn := dn) (.inl (by simp)) (by simp)
          (by simpa using ho) (by
            intro hf r hr ⟨t, ht⟩
            simp at hr; subst hr
            subst hf
            exact hpre rfl ⟨t, by simp [← ht]⟩) hv
      have he : handleAva (.ext5 (if dn then str ":dn" else []) (':' :: o) v) = .extensible (some o) none v dn := by
        simp only [handleAva, hdnb, List.drop_succ_cons, List.drop_zero, optText_some o ho.ne_nil]
      rw [he]
      simpa [AvaNode.text] using this

theorem avaComp_complete (t r : Str) (f : Filter) (h : AvaText t f) : avaComp (t ++ ')' :: r) = some (f, ')' :: r) := by
  obtain ⟨n, hok, rfl, rfl⟩ := (ava_iff t f).mp h
  simp [avaComp, avaP_complete n r hok]

theorem avaComp_sound (s r : Str) (f : Filter) (h : avaComp s = some (f, r)) : ∃ t, s = t ++ r ∧ AvaText t f := by
  simp only [avaComp] at h
  cases hp : avaP s with
  | none => rw [hp] at h; cases h
  | some q =>
    rw [hp] at h; cases h
    obtain ⟨h1, h2⟩ := avaP_sound s q.2 q.1 hp
    exact ⟨_, h1, (ava_iff _ _).mpr ⟨_, h2, rfl, rfl⟩⟩

/-! ### the standard grammar -/

/-- which characters a comparison can start with -/
theorem avaText_head (t : Str) (f : Filter) (h : AvaText t f) : ∃ c t', t = c :: t' ∧ (isLetter c ∨ isDig c ∨ c = ':') := by
  obtain ⟨n, hok, rfl, rfl⟩ := (ava_iff t f).mp h
  have key : ∀ a u : Str, AttrText a → ∃ c t', a ++ u = c :: t' ∧ (isLetter c ∨ isDig c ∨ c = ':') := by
    rintro a u ⟨o, opts, rfl, ho, _⟩
    rcases ho with ⟨c, t, rfl, hc, _⟩ | ⟨c, t, rfl, _, hc, _⟩
    · exact ⟨c, _, rfl, .inl hc⟩
    · exact ⟨c, _, rfl, .inr (.inl hc)⟩
  cases n with
  | simple a ft v => simp only [AvaNode.text, List.append_assoc]; exact key a _ hok.1
  | substring a i anys f => simp only [AvaNode.text, List.append_assoc]; exact key a _ hok.1
  | ext6 a d m v => simp only [AvaNode.text, List.append_assoc]; exact key a _ hok.1
  | ext5 d m v =>
    obtain ⟨hd, ⟨o, rfl, ho⟩, hpre, hv⟩ := hok
    rcases hd with rfl | rfl
    · exact ⟨':', _, rfl, .inr (.inr rfl)⟩
    · exact ⟨':', _, rfl, .inr (.inr rfl)⟩

theorem head_not_op (c : Char) (h : isLetter c ∨ isDig c ∨ c = ':') : c ≠ '&' ∧ c ≠ '|' ∧ c ≠ '!' ∧ c ≠ '(' := by
  refine ⟨?_, ?_, ?_, ?_⟩ <;> rintro rfl <;> revert h <;> simp [isLetter, isDig] <;> decide

theorem filtercomp_ava (rec : Rec Filter) (t r : Str) (f : Filter) (h : AvaText t f) :
    filtercomp rec (t ++ ')' :: r) = some (f, ')' :: r) := by
  obtain ⟨c, t', ht, hc⟩ := avaText_head t f h
  have hn := head_not_op c hc
  have h1 : listComp '&' .and rec (t ++ ')' :: r) = none := by rw [ht]; simp [listComp, hn.1]
  have h2 : listComp '|' .or rec (t ++ ')' :: r) = none := by rw [ht]; simp [listComp, hn.2.1]
  have h3 : notComp rec (t ++ ')' :: r) = none := by
    rw [ht, List.cons_append]
    unfold notComp
    split
    · rename_i e; cases e; exact absurd rfl hn.2.2.1
    · rfl
  simp only [filtercomp, h1, h2, h3, Option.orElse, avaComp_complete t r f h]

theorem std_close (n : Nat) (r : Str) : std n (')' :: r) = none := by
  cases n with
  | zero => rfl
  | succ n => simp [std, parens]

/-- every text of the specification is read back, by any recogniser with enough fuel -/
theorem std_complete {lv : ListLevel} {s : Str} {fs : List Filter} (h : Std lv s fs) :
    match lv with
    | .one => ∃ f, fs = [f] ∧ s ≠ [] ∧ ∀ n r, s.length ≤ n → std n (s ++ r) = some (f, r)
    | .many => ∀ n r, s.length ≤ n → star (std n) (s ++ ')' :: r) = (fs, ')' :: r) := by
  induction h with
  | @comparison t f ht =>
    refine ⟨f, rfl, by simp, ?_⟩
    intro n r hn
    cases n with
    | zero => simp at hn
    | succ n =>
      have := filtercomp_ava (std n) t r f ht
      simp [std, parens, this]
  | @and t fs hne hs ih =>
    refine ⟨_, rfl, by simp, ?_⟩
    intro n r hn
    cases n with
    | zero => simp at hn
    | succ n =>
      have := ih n r (by simp at hn ⊢; omega)
      have hl : listComp '&' .and (std n) ('&' :: (t ++ ')' :: r)) = some (.and fs, ')' :: r) := by
        simp only [listComp, if_true, this]
      simp [std, parens, filtercomp, hl]
  | @or t fs hne hs ih =>
    refine ⟨_, rfl, by simp, ?_⟩
    intro n r hn
    cases n with
    | zero => simp at hn
    | succ n =>
      have := ih n r (by simp at hn ⊢; omega)
      have hl : listComp '|' .or (std n) ('|' :: (t ++ ')' :: r)) = some (.or fs, ')' :: r) := by
        simp only [listComp, if_true, this]
      have hl0 : listComp '&' .and (std n) ('|' :: (t ++ ')' :: r)) = none := by simp [listComp]
      simp [std, parens, filtercomp, hl, hl0]
  | @not t f hs ih =>
    obtain ⟨g, hg, _, ih⟩ := ih
    cases hg
    refine ⟨_, rfl, by simp, ?_⟩
    intro n r hn
    cases n with
    | zero => simp at hn
    | succ n =>
      have := ih n (')' :: r) (by simp at hn ⊢; omega)
      simp [std, parens, filtercomp, listComp, notComp, this]
  | nil =>
    intro n r _
    simpa using star_none (std n) (')' :: r) (std_close n r)
  | @cons t u f fs h1 h2 ih1 ih2 =>
    intro n r hn
    obtain ⟨g, hg, hne, ih1⟩ := ih1
    cases hg
    rw [List.append_assoc, star_some (std n) _ _ f (ih1 n _ (by simp at hn; omega))]
    · rw [ih2 n r (by simp at hn; omega)]
    · have := List.length_pos_iff.mpr hne
      simp only [List.length_append]; omega

theorem parens_some (p : Rec Filter) (s r : Str) (f : Filter) (h : parens p s = some (f, r)) :
    ∃ t, s = '(' :: t ∧ p t = some (f, ')' :: r) := by
  unfold parens at h
  split at h
  · rename_i t
    split at h
    · rename_i hp; cases h; exact ⟨t, rfl, hp⟩
    · cases h
  · cases h

theorem listComp_some (c : Char) (mk : List Filter → Filter) (rec : Rec Filter) (s r : Str) (f : Filter)
    (h : listComp c mk rec s = some (f, r)) : ∃ t l, s = c :: t ∧ star rec t = (l, r) ∧ l ≠ [] ∧ f = mk l := by
  cases s with
  | nil => simp [listComp] at h
  | cons d t =>
    simp only [listComp] at h
    split at h
    · rename_i hd
      subst hd
      split at h
      · cases h
      · rename_i l r' hne hs
        cases h
        exact ⟨t, l, rfl, hs, hne, rfl⟩
    · cases h

theorem notComp_some (rec : Rec Filter) (s r : Str) (f : Filter) (h : notComp rec s = some (f, r)) :
    ∃ t g, s = '!' :: t ∧ rec t = some (g, r) ∧ f = .not g := by
  unfold notComp at h
  split at h
  · split at h
    · rename_i t _ g r' hr
      cases h
      exact ⟨t, g, rfl, hr, rfl⟩
    · cases h
  · cases h

theorem filtercomp_some (rec : Rec Filter) (s r : Str) (f : Filter) (h : filtercomp rec s = some (f, r)) :
    listComp '&' .and rec s = some (f, r) ∨ listComp '|' .or rec s = some (f, r) ∨ notComp rec s = some (f, r) ∨
      avaComp s = some (f, r) := by
  unfold filtercomp at h
  cases h1 : listComp '&' .and rec s with
  | some q => rw [h1] at h; left; simpa using h
  | none =>
    cases h2 : listComp '|' .or rec s with
    | some q => rw [h1, h2] at h; right; left; simpa using h
    | none =>
      cases h3 : notComp rec s with
      | some q => rw [h1, h2, h3] at h; right; right; left; simpa using h
      | none => rw [h1, h2, h3] at h; right; right; right; simpa using h

theorem star_std (p : Rec Filter) (s r : Str) (l : List Filter)
    (hp : ∀ s f r, p s = some (f, r) → ∃ t, s = t ++ r ∧ StdText t f) (h : star p s = (l, r)) :
    ∃ t, s = t ++ r ∧ Std .many t l := by
  generalize hn : s.length = n
  induction n using Nat.strongRecOn generalizing s l with
  | ind n ih =>
    rw [star_unfold] at h
    split at h
    · cases h; exact ⟨[], rfl, .nil⟩
    · rename_i x r' hx
      split at h
      · rename_i hl
        cases h
        obtain ⟨t, rfl, h2⟩ := hp s x r' hx
        obtain ⟨u, h3, h4⟩ := ih r'.length (by omega) r' _ rfl rfl
        exact ⟨t ++ u, by rw [List.append_assoc]; congr 1, .cons h2 h4⟩
      · cases h; exact ⟨[], rfl, .nil⟩

theorem std_sound (n : Nat) (s r : Str) (f : Filter) (h : std n s = some (f, r)) : ∃ t, s = t ++ r ∧ StdText t f := by
  induction n generalizing s r f with
  | zero => simp [std] at h
  | succ n ih =>
    simp only [std] at h
    obtain ⟨u, rfl, hu⟩ := parens_some _ _ _ _ h
    rcases filtercomp_some _ _ _ _ hu with h1 | h1 | h1 | h1
    · obtain ⟨t, l, rfl, hs, hne, rfl⟩ := listComp_some _ _ _ _ _ _ h1
      obtain ⟨t', rfl, ht⟩ := star_std _ _ _ _ (fun s f r hh => ih s r f hh) hs
      exact ⟨str "(&" ++ t' ++ str ")", by simp, .and hne ht⟩
    · obtain ⟨t, l, rfl, hs, hne, rfl⟩ := listComp_some _ _ _ _ _ _ h1
      obtain ⟨t', rfl, ht⟩ := star_std _ _ _ _ (fun s f r hh => ih s r f hh) hs
      exact ⟨str "(|" ++ t' ++ str ")", by simp, .or hne ht⟩
    · obtain ⟨t, g, rfl, hs, rfl⟩ := notComp_some _ _ _ _ h1
      obtain ⟨t', rfl, ht⟩ := ih _ _ _ hs
      exact ⟨str "(!" ++ t' ++ str ")", by simp, .not ht⟩
    · obtain ⟨t, rfl, ht⟩ := avaComp_sound _ _ _ h1
      exact ⟨str "(" ++ t ++ str ")", by simp, .comparison ht⟩

theorem whole_ok (p : Rec Filter) (s : Str) (f : Filter) : whole p s = .ok f ↔ p s = some (f, []) := by
  unfold whole
  split
  · rename_i g h; simp [h]
  · rename_i hne
    constructor
    · intro h; cases h
    · intro h; exact absurd h (hne f)

/-- `parse_standard_filter` accepts exactly the texts of the specification, with their filter -/
theorem parseStandard_iff (s : Str) (f : Filter) : parseStandard s = .ok f ↔ StdText s f := by
  rw [parseStandard, whole_ok]
  constructor
  · intro h
    obtain ⟨t, rfl, ht⟩ := std_sound _ _ _ _ h
    simpa using ht
  · intro h
    obtain ⟨g, hg, _, hp⟩ := std_complete h
    cases hg
    have := hp (s.length + 1) [] (by omega)
    simpa using this

end Laurelin
