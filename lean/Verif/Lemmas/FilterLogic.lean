import Verif.Lemmas.Filter
/-! The SQL-style logic layer of laurelin's simple and unified filter syntax: the recognisers accept exactly the texts of the
specification. -/
namespace Laurelin
open Laurelin.Spec

def isBlankC (c : Char) : Bool := c == ' ' || c == '\t'

theorem space_split (s : Str) : ∃ b, s = b ++ space s ∧ Blank b := by
  refine ⟨s.takeWhile (fun c => c == ' ' || c == '\t'), ?_, ?_⟩
  · simp [space, List.takeWhile_append_dropWhile]
  · intro c hc
    have := takeWhile_all _ _ c hc
    simpa using this

theorem space_blank (b s : Str) (hb : Blank b) (hs : Stops isBlankC s) : space (b ++ s) = s :=
  (takeWhile_stops isBlankC b s (by intro c hc; simpa [isBlankC] using hb c hc) hs).2

theorem space_nb (c : Char) (t : Str) (h : isBlankC c = false) : space (c :: t) = c :: t := by
  simpa using space_blank [] (c :: t) (by intro c hc; simp at hc) (by intro d hd; simp at hd; subst hd; exact h)

/-! ### soundness -/

section sound
variable {leafP : Rec Filter} {leaf : Str → Filter → Prop}

theorem opExp_some (w : Str) (p : Rec Filter) (s r : Str) (f : Filter) (h : opExp w p s = some (f, r)) :
    ∃ a b t, Blank a ∧ Blank b ∧ s = a ++ w ++ b ++ t ∧ p t = some (f, r) := by
  unfold opExp at h
  split at h
  · cases h
  · rename_i u hk
    obtain ⟨a, ha, ha'⟩ := space_split s
    obtain ⟨b, hb, hb'⟩ := space_split u
    refine ⟨a, b, space u, ha', hb', ?_, h⟩
    rw [ha, (kw_eq _ _ _).mp hk, List.append_assoc, List.append_assoc, ← hb]

/-- the operands after the first -/
theorem star_op_sound (w : Str) (p : Rec Filter) (One : Str → Filter → Prop) (Many : Str → List Filter → Prop)
    (hp : ∀ s f r, p s = some (f, r) → ∃ t, s = t ++ r ∧ One t f)
    (h1 : ∀ t f, One t f → Many t [f])
    (h2 : ∀ t f a b u fs, One t f → Blank a → Blank b → Many u fs → Many (t ++ a ++ w ++ b ++ u) (f :: fs))
    (s r : Str) (fs : List Filter) (h : star (opExp w p) s = (fs, r)) (t0 : Str) (f0 : Filter) (ht0 : One t0 f0) :
    ∃ u, s = u ++ r ∧ Many (t0 ++ u) (f0 :: fs) := by
  generalize hn : s.length = n
  induction n using Nat.strongRecOn generalizing s fs t0 f0 with
  | ind n ih =>
    rw [star_unfold] at h
    split at h
    · cases h; exact ⟨[], rfl, by simpa using h1 t0 f0 ht0⟩
    · rename_i x r' hx
      split at h
      · rename_i hl
        cases h
        obtain ⟨a, b, t, ha, hb, hs, ht⟩ := opExp_some _ _ _ _ _ hx
        obtain ⟨t1, rfl, ht1⟩ := hp _ _ _ ht
        obtain ⟨u, hu, hm⟩ := ih r'.length (by omega) r' _ rfl t1 x ht1 rfl
        refine ⟨a ++ w ++ b ++ (t1 ++ u), ?_, ?_⟩
        · rw [hs]; simp only [List.append_assoc]; rw [← hu]
        · have := h2 t0 f0 a b (t1 ++ u) _ ht0 ha hb hm
          simp only [List.append_assoc] at this ⊢
          exact this
      · cases h; exact ⟨[], rfl, by simpa using h1 t0 f0 ht0⟩

theorem chain_some (w : Str) (mk : List Filter → Filter) (p : Rec Filter) (s r : Str) (f : Filter) (h : chain w mk p s = some (f, r)) :
    ∃ (f0 : Filter) (r0 : Str) (fs : List Filter),
      p s = some (f0, r0) ∧ star (opExp w p) r0 = (fs, r) ∧ f = bundle mk (f0 :: fs) := by
  unfold chain at h
  split at h
  · cases h
  · rename_i f0 r0 h0
    split at h
    · rename_i r' hs
      simp only [Option.some.injEq, Prod.mk.injEq] at h
      obtain ⟨rfl, rfl⟩ := h
      exact ⟨_, r0, [], h0, hs, rfl⟩
    · rename_i fs r' hne hs
      cases h
      refine ⟨f0, r0, fs, h0, hs, ?_⟩
      cases fs with
      | nil => exact absurd rfl hne
      | cons _ _ => rfl

theorem component_sound (term : Rec Filter) (hp : ∀ s f r, term s = some (f, r) → ∃ t, s = t ++ r ∧ Logic leaf .term t [f])
    (s r : Str) (f : Filter) (h : component term s = some (f, r)) :
    ∃ t, s = t ++ r ∧ ∃ fs, Logic leaf .ands t fs ∧ f = bundle .and fs := by
  obtain ⟨f0, r0, fs, h0, hs, rfl⟩ := chain_some _ _ _ _ _ _ h
  obtain ⟨t0, rfl, ht0⟩ := hp _ _ _ h0
  obtain ⟨u, rfl, hu⟩ := star_op_sound (str "AND") term (fun t f => Logic leaf .term t [f]) (fun t fs => Logic leaf .ands t fs) hp
    (fun _ _ h => .andOne h) (fun _ _ _ _ _ _ h ha hb hm => .andCons h ha hb hm) _ _ _ hs t0 f0 ht0
  exact ⟨t0 ++ u, by simp, _, hu, rfl⟩

theorem simpleFilter_sound (term : Rec Filter) (hp : ∀ s f r, term s = some (f, r) → ∃ t, s = t ++ r ∧ Logic leaf .term t [f])
    (s r : Str) (f : Filter) (h : simpleFilter term s = some (f, r)) :
    ∃ t, s = t ++ r ∧ LogicText leaf t f := by
  obtain ⟨f0, r0, fs, h0, hs, rfl⟩ := chain_some _ _ _ _ _ _ h
  have hc := fun s f r => component_sound (leaf := leaf) term hp s r f
  obtain ⟨t0, rfl, ht0⟩ := hc _ _ _ h0
  obtain ⟨u, rfl, hu⟩ := star_op_sound (str "OR") (component term) (fun t f => ∃ fs, Logic leaf .ands t fs ∧ f = bundle .and fs)
    (fun t fs => Logic leaf .ors t fs) hc
    (fun _ _ h => by obtain ⟨fs, h, rfl⟩ := h; exact .orOne h)
    (fun _ _ _ _ _ _ h ha hb hm => by obtain ⟨fs, h, rfl⟩ := h; exact .orCons h ha hb hm) _ _ _ hs t0 f0 ht0
  exact ⟨t0 ++ u, by simp, _, hu, rfl⟩

theorem notExp_some (term : Rec Filter) (s r : Str) (f : Filter) (h : notExp term s = some (f, r)) :
    ∃ b t g, Blank b ∧ s = str "NOT" ++ b ++ t ∧ term t = some (g, r) ∧ f = .not g := by
  unfold notExp at h
  split at h
  · cases h
  · rename_i u hk
    split at h
    · rename_i g r' hg
      cases h
      obtain ⟨b, hb, hb'⟩ := space_split u
      refine ⟨b, space u, g, hb', ?_, hg, rfl⟩
      rw [(kw_eq _ _ _).mp hk, List.append_assoc, ← hb]
    · cases h

theorem parenTerm_some (term : Rec Filter) (s r : Str) (f : Filter) (h : parenTerm term s = some (f, r)) :
    ∃ a b t, Blank a ∧ Blank b ∧ s = str "(" ++ a ++ t ∧ simpleFilter term t = some (f, b ++ ')' :: r) := by
  obtain ⟨t, rfl, ht⟩ := parens_some _ _ _ _ h
  split at ht
  · rename_i g r' hg
    obtain ⟨a, ha, ha'⟩ := space_split t
    obtain ⟨b, hb, hb'⟩ := space_split r'
    simp only [Option.some.injEq, Prod.mk.injEq] at ht
    obtain ⟨rfl, ht⟩ := ht
    refine ⟨a, b, space t, ha', hb', ?_, ?_⟩
    · simp [← ha]
    · rw [hg, ← ht, ← hb]
  · cases ht

theorem term_cases (leafP : Rec Filter) (n : Nat) (s r : Str) (f : Filter) (h : term leafP (n + 1) s = some (f, r)) :
    notExp (term leafP n) s = some (f, r) ∨ parenTerm (term leafP n) s = some (f, r) ∨ leafP s = some (f, r) := by
  simp only [term] at h
  cases h1 : notExp (term leafP n) s with
  | some q => rw [h1] at h; left; simpa using h
  | none =>
    cases h2 : parenTerm (term leafP n) s with
    | some q => rw [h1, h2] at h; right; left; simpa using h
    | none => rw [h1, h2] at h; right; right; simpa using h

theorem term_sound (hleaf : ∀ s f r, leafP s = some (f, r) → ∃ t, s = t ++ r ∧ leaf t f) (n : Nat) (s : Str) (f : Filter) (r : Str)
    (h : term leafP n s = some (f, r)) : ∃ t, s = t ++ r ∧ Logic leaf .term t [f] := by
  induction n generalizing s f r with
  | zero => simp [term] at h
  | succ n ih =>
    rcases term_cases _ _ _ _ _ h with h1 | h1 | h1
    · obtain ⟨b, t, g, hb, rfl, ht, rfl⟩ := notExp_some _ _ _ _ h1
      obtain ⟨u, rfl, hu⟩ := ih _ _ _ ht
      exact ⟨str "NOT" ++ b ++ u, by simp, .not hb hu⟩
    · obtain ⟨a, b, t, ha, hb, rfl, ht⟩ := parenTerm_some _ _ _ _ h1
      obtain ⟨u, rfl, fs, hu, rfl⟩ := simpleFilter_sound _ ih _ _ _ ht
      exact ⟨str "(" ++ a ++ u ++ b ++ str ")", by simp, .paren ha hb hu⟩
    · obtain ⟨t, rfl, ht⟩ := hleaf _ _ _ h1
      exact ⟨t, rfl, .leaf ht⟩

end sound

/-! ### completeness -/

/-- characters that can precede the first parenthesis of a term -/
def isLead (c : Char) : Bool := c == 'N' || c == 'O' || c == 'T' || c == ' ' || c == '\t'

/-- the first character that is not one of those -/
def firstReal (s : Str) : Option Char := s.find? (fun c => !isLead c)

theorem firstReal_append_blank (b s : Str) (h : ∀ c ∈ b, isLead c = true) : firstReal (b ++ s) = firstReal s := by
  induction b with
  | nil => rfl
  | cons c b ih =>
    simp only [firstReal, List.cons_append, List.find?_cons]
    rw [h c (by simp)]
    simpa [firstReal] using ih (fun d hd => h d (List.mem_cons_of_mem _ hd))

theorem blank_lead (b : Str) (h : Blank b) : ∀ c ∈ b, isLead c = true := by
  intro c hc
  rcases h c hc with rfl | rfl <;> decide

theorem firstReal_space (s : Str) : firstReal (space s) = firstReal s := by
  obtain ⟨b, hb, hb'⟩ := space_split s
  conv => rhs; rw [hb]
  rw [firstReal_append_blank b _ (blank_lead b hb')]

theorem firstReal_paren (s : Str) : firstReal ('(' :: s) = some '(' := rfl

/-- a term leads to an opening parenthesis -/
theorem term_first (leafP : Rec Filter) (hleaf : ∀ s q, leafP s = some q → ∃ t, s = '(' :: t) (n : Nat) (s : Str) (q : Filter × Str)
    (h : term leafP n s = some q) : firstReal s = some '(' := by
  obtain ⟨f, r⟩ := q
  induction n generalizing s f r with
  | zero => simp [term] at h
  | succ n ih =>
    rcases term_cases _ _ _ _ _ h with h1 | h1 | h1
    · obtain ⟨b, t, g, hb, rfl, ht, rfl⟩ := notExp_some _ _ _ _ h1
      rw [firstReal_append_blank _ _ (by
        intro c hc
        rcases List.mem_append.mp hc with h | h
        · simp at h; rcases h with rfl | rfl | rfl <;> decide
        · exact blank_lead b hb c h)]
      exact ih _ _ _ ht
    · obtain ⟨a, b, t, ha, hb, rfl, ht⟩ := parenTerm_some _ _ _ _ h1
      rfl
    · obtain ⟨t, rfl⟩ := hleaf _ _ h1
      rfl

theorem parenTerm_none (leafP : Rec Filter) (hleaf : ∀ s q, leafP s = some q → ∃ t, s = '(' :: t) (n : Nat) (t : Str)
    (h : firstReal t ≠ some '(') : parenTerm (term leafP n) ('(' :: t) = none := by
  have h1 : term leafP n (space t) = none := by
    cases ht : term leafP n (space t) with
    | none => rfl
    | some q => exact absurd ((firstReal_space t).symm.trans (term_first leafP hleaf n _ q ht)) h
  simp [parenTerm, parens, simpleFilter, component, chain, h1]

/-- terms, and-chains and or-chains start with `(` or `N` -/
theorem logic_head {leaf : Str → Filter → Prop} (hleaf : ∀ t f, leaf t f → ∃ u, t = '(' :: u) {lv : LogicLevel} {s : Str}
    {fs : List Filter} (h : Logic leaf lv s fs) : ∃ c u, s = c :: u ∧ (c = '(' ∨ c = 'N') := by
  induction h with
  | leaf h => obtain ⟨u, rfl⟩ := hleaf _ _ h; exact ⟨_, _, rfl, .inl rfl⟩
  | not => exact ⟨_, _, rfl, .inr rfl⟩
  | paren => exact ⟨_, _, rfl, .inl rfl⟩
  | andOne _ ih => exact ih
  | andCons _ _ _ _ ih _ => obtain ⟨c, u, rfl, hc⟩ := ih; exact ⟨c, _, rfl, hc⟩
  | orOne _ ih => exact ih
  | orCons _ _ _ _ ih _ => obtain ⟨c, u, rfl, hc⟩ := ih; exact ⟨c, _, rfl, hc⟩

theorem stops_of_head (s : Str) (h : ∃ c u, s = c :: u ∧ (c = '(' ∨ c = 'N')) (r : Str) : Stops isBlankC (s ++ r) := by
  obtain ⟨c, u, rfl, hc⟩ := h
  intro d hd
  simp at hd
  subst hd
  rcases hc with rfl | rfl <;> decide

/-- no operator follows -/
def NoOp (w r : Str) : Prop := kw w (space r) = none

theorem noOp_blank (w b r : Str) (c : Char) (hb : Blank b) (hc : isBlankC c = false) (hw : ∀ t, kw w (c :: t) = none) :
    NoOp w (b ++ c :: r) := by
  rw [NoOp, space_blank b (c :: r) hb (by intro d hd; simp at hd; subst hd; exact hc)]
  exact hw r

theorem opExp_noOp (w r : Str) (p : Rec Filter) (h : NoOp w r) : opExp w p r = none := by
  simp only [opExp]; rw [h]

theorem opExp_complete (w a b t r : Str) (p : Rec Filter) (f : Filter) (ha : Blank a) (hb : Blank b) (hw : ∀ u, Stops isBlankC (w ++ u))
    (ht : Stops isBlankC (t ++ r)) (hp : p (t ++ r) = some (f, r)) : opExp w p (a ++ w ++ b ++ t ++ r) = some (f, r) := by
  have h1 : space (a ++ w ++ b ++ t ++ r) = w ++ (b ++ (t ++ r)) := by
    simp only [List.append_assoc]
    exact space_blank a _ ha (hw _)
  simp only [opExp, h1, kw_append, space_blank b _ hb ht, hp]

theorem chain_complete (w : Str) (mk : List Filter → Filter) (p : Rec Filter) (s r r0 : Str) (f0 : Filter) (fs : List Filter)
    (h0 : p s = some (f0, r0)) (hs : star (opExp w p) r0 = (fs, r)) : chain w mk p s = some (bundle mk (f0 :: fs), r) := by
  simp only [chain, h0, hs]
  cases fs <;> rfl

/-- what completeness says at each level -/
def Reads (leafP : Rec Filter) (lv : LogicLevel) (s : Str) (fs : List Filter) : Prop :=
  match lv with
  | .term => ∃ f, fs = [f] ∧ ∀ n r, s.length ≤ n → term leafP n (s ++ r) = some (f, r)
  | .ands => ∀ n r, s.length ≤ n → NoOp (str "AND") r → ∃ f0 gs r0, fs = f0 :: gs ∧
      term leafP n (s ++ r) = some (f0, r0) ∧ star (opExp (str "AND") (term leafP n)) r0 = (gs, r)
  | .ors => ∀ n r, s.length ≤ n → NoOp (str "AND") r → NoOp (str "OR") r → ∃ f0 gs r0, fs = f0 :: gs ∧
      component (term leafP n) (s ++ r) = some (f0, r0) ∧ star (opExp (str "OR") (component (term leafP n))) r0 = (gs, r)

theorem logic_complete {leafP : Rec Filter} {leaf : Str → Filter → Prop}
    (hsound : ∀ s f r, leafP s = some (f, r) → ∃ t, s = t ++ r ∧ leaf t f)
    (hleaf : ∀ t f, leaf t f → (∃ u, t = '(' :: u ∧ ∀ r, firstReal (u ++ r) ≠ some '(') ∧ ∀ r, leafP (t ++ r) = some (f, r))
    {lv : LogicLevel} {s : Str} {fs : List Filter} (h : Logic leaf lv s fs) : Reads leafP lv s fs := by
  have hhead : ∀ {lv : LogicLevel} {s : Str} {fs : List Filter}, Logic leaf lv s fs → ∃ c u, s = c :: u ∧ (c = '(' ∨ c = 'N') :=
    fun h => logic_head (fun t f ht => by obtain ⟨⟨u, hu, _⟩, _⟩ := hleaf t f ht; exact ⟨u, hu⟩) h
  have hsome : ∀ s q, leafP s = some q → ∃ t, s = '(' :: t := by
    rintro s ⟨f, r⟩ hq
    obtain ⟨t, rfl, ht⟩ := hsound _ _ _ hq
    obtain ⟨⟨u, rfl, _⟩, _⟩ := hleaf _ _ ht
    exact ⟨_, rfl⟩
  induction h with
  | @leaf s f hl =>
    obtain ⟨⟨u, rfl, hu⟩, hp⟩ := hleaf _ _ hl
    refine ⟨f, rfl, ?_⟩
    intro n r hn
    cases n with
    | zero => simp at hn
    | succ n =>
      have h1 : notExp (term leafP n) ('(' :: u ++ r) = none := by simp [notExp, kw]
      have h2 : parenTerm (term leafP n) ('(' :: (u ++ r)) = none := parenTerm_none leafP hsome n (u ++ r) (hu r)
      simp only [List.cons_append] at *
      simp only [term, h1, h2, Option.orElse]
      exact hp r
  | @not b s f hb hs ih =>
    obtain ⟨g, hg, ih⟩ := ih
    cases hg
    refine ⟨_, rfl, ?_⟩
    intro n r hn
    cases n with
    | zero => simp at hn
    | succ n =>
      have h1 := ih n r (by simp at hn ⊢; omega)
      have h2 : space (b ++ (s ++ r)) = s ++ r := space_blank b _ hb (stops_of_head s (hhead hs) r)
      have h3 : kw (str "NOT") (str "NOT" ++ (b ++ (s ++ r))) = some (b ++ (s ++ r)) := kw_append _ _
      have h4 : notExp (term leafP n) (str "NOT" ++ (b ++ (s ++ r))) = some (.not f, r) := by
        simp only [notExp, h3, h2, h1]
      simp only [List.append_assoc, term, h4, Option.orElse]
  | @paren a b s fs ha hb hs ih =>
    refine ⟨_, rfl, ?_⟩
    intro n r hn
    cases n with
    | zero => simp at hn
    | succ n =>
      obtain ⟨f0, gs, r0, hfs, h0, hst⟩ := ih n (b ++ ')' :: r) (by simp at hn ⊢; omega)
        (noOp_blank _ b r ')' hb (by decide) (by intro t; simp [kw])) (noOp_blank _ b r ')' hb (by decide) (by intro t; simp [kw]))
      have h1 := chain_complete (str "OR") .or (component (term leafP n)) _ _ _ _ _ h0 hst
      have h2 : space (a ++ (s ++ (b ++ ')' :: r))) = s ++ (b ++ ')' :: r) := space_blank a _ ha (stops_of_head s (hhead hs) _)
      have h3 : space (b ++ ')' :: r) = ')' :: r := space_blank b _ hb (by intro d hd; simp at hd; subst hd; decide)
      have h4 : parenTerm (term leafP n) ('(' :: (a ++ (s ++ (b ++ ')' :: r)))) = some (bundle .or fs, r) := by
        simp only [parenTerm, parens, h2, simpleFilter, h1, h3, hfs]
      have h5 : notExp (term leafP n) ('(' :: (a ++ (s ++ (b ++ ')' :: r)))) = none := by simp [notExp, kw]
      simp only [List.append_assoc, List.cons_append, List.nil_append, term, h4, h5, Option.orElse]
  | @andOne s f hs ih =>
    obtain ⟨g, hg, ih⟩ := ih
    cases hg
    intro n r hn hno
    exact ⟨f, [], r, rfl, ih n r hn, star_none _ _ (opExp_noOp _ _ _ hno)⟩
  | @andCons a b s t f fs hs ha hb ht ih1 ih2 =>
    obtain ⟨g, hg, ih1⟩ := ih1
    cases hg
    intro n r hn hno
    simp only [List.length_append] at hn
    obtain ⟨f0, gs, r0, rfl, h0, hst⟩ := ih2 n r (by omega) hno
    refine ⟨f, f0 :: gs, a ++ str "AND" ++ b ++ (t ++ r), rfl, ?_, ?_⟩
    · have := ih1 n (a ++ str "AND" ++ b ++ (t ++ r)) (by omega)
      simpa only [List.append_assoc] using this
    · have hop : opExp (str "AND") (term leafP n) (a ++ str "AND" ++ b ++ (t ++ r)) = some (f0, r0) := by
        have h1 : space (a ++ str "AND" ++ b ++ (t ++ r)) = str "AND" ++ (b ++ (t ++ r)) := by
          simp only [List.append_assoc]
          exact space_blank a _ ha (by intro d hd; simp at hd; subst hd; decide)
        simp only [opExp, h1, kw_append, space_blank b _ hb (stops_of_head t (hhead ht) r), h0]
      have hl : r0.length < (a ++ str "AND" ++ b ++ (t ++ r)).length := by
        obtain ⟨u, hu, _⟩ := term_sound hsound n _ _ _ h0
        have := congrArg List.length hu
        simp only [List.length_append, List.length_cons, List.length_nil] at *
        omega
      rw [star_some _ _ _ _ hop hl, hst]
  | @orOne s fs hs ih =>
    intro n r hn hno hno'
    obtain ⟨f0, gs, r0, rfl, h0, hst⟩ := ih n r hn hno
    exact ⟨_, [], r, rfl, chain_complete _ _ _ _ _ _ _ _ h0 hst, star_none _ _ (opExp_noOp _ _ _ hno')⟩
  | @orCons a b s t fs gs hs ha hb ht ih1 ih2 =>
    intro n r hn hno hno'
    simp only [List.length_append] at hn
    obtain ⟨f0, hs', r0, rfl, h0, hst⟩ := ih2 n r (by omega) hno hno'
    obtain ⟨e0, es, q0, rfl, g0, gst⟩ := ih1 n (a ++ str "OR" ++ b ++ (t ++ r)) (by omega) (by
      simp only [List.append_assoc, List.cons_append, List.nil_append]
      exact noOp_blank _ a _ 'O' ha (by decide) (by intro t; simp [kw]))
    refine ⟨_, f0 :: hs', a ++ str "OR" ++ b ++ (t ++ r), rfl, ?_, ?_⟩
    · have := chain_complete (str "AND") .and (term leafP n) _ _ _ _ _ g0 gst
      simp only [List.append_assoc] at this ⊢
      exact this
    · have hop : opExp (str "OR") (component (term leafP n)) (a ++ str "OR" ++ b ++ (t ++ r)) = some (f0, r0) := by
        have h1 : space (a ++ str "OR" ++ b ++ (t ++ r)) = str "OR" ++ (b ++ (t ++ r)) := by
          simp only [List.append_assoc]
          exact space_blank a _ ha (by intro d hd; simp at hd; subst hd; decide)
        simp only [opExp, h1, kw_append, space_blank b _ hb (stops_of_head t (hhead ht) r), h0]
      have hl : r0.length < (a ++ str "OR" ++ b ++ (t ++ r)).length := by
        obtain ⟨u, hu, _⟩ := component_sound (leaf := leaf) _ (term_sound hsound n) _ _ _ h0
        have := congrArg List.length hu
        simp only [List.length_append, List.length_cons, List.length_nil] at *
        omega
      rw [star_some _ _ _ _ hop hl, hst]


theorem logicText_complete {leafP : Rec Filter} {leaf : Str → Filter → Prop}
    (hsound : ∀ s f r, leafP s = some (f, r) → ∃ t, s = t ++ r ∧ leaf t f)
    (hleaf : ∀ t f, leaf t f → (∃ u, t = '(' :: u ∧ ∀ r, firstReal (u ++ r) ≠ some '(') ∧ ∀ r, leafP (t ++ r) = some (f, r))
    (s : Str) (f : Filter) (n : Nat) (hn : s.length ≤ n) (h : LogicText leaf s f) :
    simpleFilter (term leafP n) s = some (f, []) := by
  obtain ⟨fs, hl, rfl⟩ := h
  have := logic_complete hsound hleaf hl
  obtain ⟨f0, gs, r0, rfl, h0, hst⟩ := this n [] hn rfl rfl
  simp only [List.append_nil] at h0
  exact chain_complete _ _ _ _ _ _ _ _ h0 hst

/-! ### the two leaves -/

theorem nameChar_ne_paren {c : Char} (h : isNameChar c) : c ≠ '(' := by
  rintro rfl
  revert h
  simp [isNameChar, isLetter, isDig]

theorem oid_no_paren {o : Str} (h : OidText o) : '(' ∉ o := by
  intro hm
  rcases h with ⟨c, t, rfl, hc, ht⟩ | ⟨c, l, rfl, _, hc, hl⟩
  · rcases List.mem_cons.mp hm with h | h
    · exact nameChar_ne_paren (.inl hc) h.symm
    · exact nameChar_ne_paren (ht _ h) rfl
  · rcases List.mem_cons.mp hm with h | h
    · exact nameChar_ne_paren (.inr (.inl hc)) h.symm
    · simp only [List.mem_flatten, List.mem_map] at h
      obtain ⟨_, ⟨b, hb, rfl⟩, h⟩ := h
      simp at h
      exact nameChar_ne_paren (.inr (.inl (hl _ hb))) h.symm

theorem attr_no_paren {a : Str} (h : AttrText a) : '(' ∉ a := by
  obtain ⟨o, opts, rfl, ho, hopts⟩ := h
  intro hm
  rcases List.mem_append.mp hm with h | h
  · exact oid_no_paren ho h
  · simp only [List.mem_flatten, List.mem_map] at h
    obtain ⟨_, ⟨p, hp, rfl⟩, h⟩ := h
    rcases List.mem_cons.mp h with h | h
    · simp at h
    · exact nameChar_ne_paren ((hopts p hp).2 _ h) rfl

theorem firstReal_ne (u w : Str) (c : Char) (hu : '(' ∉ u) (hc : c ≠ '(') (hl : isLead c = false) :
    firstReal (u ++ c :: w) ≠ some '(' := by
  induction u with
  | nil => simp [firstReal, hl, hc]
  | cons d u ih =>
    simp only [firstReal, List.cons_append, List.find?_cons]
    have hd : d ≠ '(' := fun h => hu (by simp [h])
    cases h : isLead d with
    | false => simpa using hd
    | true => simpa [firstReal] using ih (fun h => hu (List.mem_cons_of_mem _ h))

theorem ava_firstReal (t : Str) (f : Filter) (h : AvaText t f) (r : Str) : firstReal (t ++ r) ≠ some '(' := by
  obtain ⟨n, hok, rfl, rfl⟩ := (ava_iff t f).mp h
  cases n with
  | simple a ft v =>
    simp only [AvaNode.text, List.append_assoc]
    cases ft <;> exact firstReal_ne a _ _ (attr_no_paren hok.1) (by decide) (by decide)
  | substring a i anys f =>
    simp only [AvaNode.text, List.append_assoc, List.cons_append, List.nil_append]
    exact firstReal_ne a _ _ (attr_no_paren hok.1) (by decide) (by decide)
  | ext6 a d m v =>
    obtain ⟨ha, hd, hm, hpre, hv⟩ := hok
    simp only [AvaNode.text, List.append_assoc]
    have : ∃ w, d ++ (m ++ (str ":=" ++ (v ++ r))) = ':' :: w := by
      rcases hd with rfl | rfl
      · rcases hm with rfl | ⟨o, rfl, _⟩ <;> exact ⟨_, rfl⟩
      · exact ⟨_, rfl⟩
    obtain ⟨w, hw⟩ := this
    rw [hw]
    exact firstReal_ne a w _ (attr_no_paren ha) (by decide) (by decide)
  | ext5 d m v =>
    obtain ⟨hd, ⟨o, rfl, ho⟩, hpre, hv⟩ := hok
    rcases hd with rfl | rfl
    · simp [AvaNode.text, firstReal, isLead]
    · simp [AvaNode.text, firstReal, isLead]

theorem simpleLeaf_sound (s : Str) (f : Filter) (r : Str) (h : simpleLeaf s = some (f, r)) : ∃ t, s = t ++ r ∧ SimpleLeaf t f := by
  obtain ⟨t, rfl, ht⟩ := parens_some _ _ _ _ h
  obtain ⟨u, rfl, hu⟩ := avaComp_sound _ _ _ ht
  exact ⟨str "(" ++ u ++ str ")", by simp, u, hu, rfl⟩

theorem simpleLeaf_complete (t : Str) (f : Filter) (h : SimpleLeaf t f) :
    (∃ u, t = '(' :: u ∧ ∀ r, firstReal (u ++ r) ≠ some '(') ∧ ∀ r, simpleLeaf (t ++ r) = some (f, r) := by
  obtain ⟨u, hu, rfl⟩ := h
  refine ⟨⟨u ++ str ")", rfl, fun r => by rw [List.append_assoc]; exact ava_firstReal u f hu _⟩, fun r => ?_⟩
  have := avaComp_complete u r f hu
  simp [simpleLeaf, parens, this]

theorem unifiedLeaf_sound (s : Str) (f : Filter) (r : Str) (h : unifiedLeaf s = some (f, r)) : ∃ t, s = t ++ r ∧ StdText t f :=
  std_sound _ _ _ _ h

theorem unifiedLeaf_complete (t : Str) (f : Filter) (h : StdText t f) :
    (∃ u, t = '(' :: u ∧ ∀ r, firstReal (u ++ r) ≠ some '(') ∧ ∀ r, unifiedLeaf (t ++ r) = some (f, r) := by
  constructor
  · cases h with
    | @comparison t _ h => exact ⟨t ++ str ")", rfl, fun r => by rw [List.append_assoc]; exact ava_firstReal _ f h _⟩
    | and _ _ => exact ⟨_, rfl, fun r => by simp [firstReal, isLead]⟩
    | or _ _ => exact ⟨_, rfl, fun r => by simp [firstReal, isLead]⟩
    | not _ => exact ⟨_, rfl, fun r => by simp [firstReal, isLead]⟩
  · intro r
    obtain ⟨g, hg, _, hp⟩ := std_complete h
    cases hg
    exact hp _ r (by simp; omega)

/-- `parse_simple_filter` accepts exactly the texts of the specification, with their filter -/
theorem parseSimple_iff (s : Str) (f : Filter) : parseSimple s = .ok f ↔ LogicText SimpleLeaf s f := by
  rw [parseSimple, whole_ok]
  constructor
  · intro h
    obtain ⟨t, rfl, ht⟩ := simpleFilter_sound _ (term_sound simpleLeaf_sound _) _ _ _ h
    simpa using ht
  · exact logicText_complete simpleLeaf_sound simpleLeaf_complete s f _ (by omega)

/-- `parse` accepts exactly the texts of the specification, with their filter -/
theorem parseUnified_iff (s : Str) (f : Filter) : parseUnified s = .ok f ↔ LogicText StdText s f := by
  rw [parseUnified, whole_ok]
  constructor
  · intro h
    obtain ⟨t, rfl, ht⟩ := simpleFilter_sound _ (term_sound unifiedLeaf_sound _) _ _ _ h
    simpa using ht
  · exact logicText_complete unifiedLeaf_sound unifiedLeaf_complete s f _ (by omega)

/-! ### fuel -/

/-- more fuel than the length of the input never changes what the standard recogniser does -/
theorem std_fuel (n m : Nat) (s : Str) (hn : s.length ≤ n) (hm : s.length ≤ m) : std n s = std m s := by
  have key : ∀ n m, s.length ≤ m → ∀ q, std n s = some q → std m s = some q := by
    rintro n m hm ⟨f, r⟩ h
    obtain ⟨t, rfl, ht⟩ := std_sound _ _ _ _ h
    obtain ⟨g, hg, _, hp⟩ := std_complete ht
    cases hg
    exact hp m r (by simp at hm; omega)
  cases h : std n s with
  | some q => exact (key n m hm q h).symm
  | none =>
    cases h' : std m s with
    | none => rfl
    | some q => rw [key m n hn q h'] at h; cases h

/-- the same for terms -/
theorem term_fuel (leafP : Rec Filter) (leaf : Str → Filter → Prop)
    (hsound : ∀ s f r, leafP s = some (f, r) → ∃ t, s = t ++ r ∧ leaf t f)
    (hleaf : ∀ t f, leaf t f → (∃ u, t = '(' :: u ∧ ∀ r, firstReal (u ++ r) ≠ some '(') ∧ ∀ r, leafP (t ++ r) = some (f, r))
    (n m : Nat) (s : Str) (hn : s.length ≤ n) (hm : s.length ≤ m) : term leafP n s = term leafP m s := by
  have key : ∀ n m, s.length ≤ m → ∀ q, term leafP n s = some q → term leafP m s = some q := by
    rintro n m hm ⟨f, r⟩ h
    obtain ⟨t, rfl, ht⟩ := term_sound hsound _ _ _ _ h
    obtain ⟨g, hg, hp⟩ := logic_complete hsound hleaf ht
    cases hg
    exact hp m r (by simp at hm; omega)
  cases h : term leafP n s with
  | some q => exact (key n m hm q h).symm
  | none =>
    cases h' : term leafP m s with
    | none => rfl
    | some q => rw [key m n hn q h'] at h; cases h

end Laurelin
