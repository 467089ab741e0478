import Verif.Props.Guide
/-!
# C77, the exact language of the guide syntaxes
-/
namespace Laurelin.GuideP
open Laurelin Spec Abnf BaseRules Guide

theorem scan_balanced {g : Str} (h : Balanced g) : ∀ (p i : Nat) (rest : Str), 0 < p → parenScan p i (g ++ rest) = parenScan p (i + g.length) rest := by
  induction h with
  | nil => intro p i rest _; simp
  | char c t h1 h2 _ ih =>
    intro p i rest hp
    rw [List.cons_append, parenScan]
    simp only [h1, h2, if_false]
    rw [if_neg (by omega), ih _ _ _ hp]
    simp only [List.length_cons]
    congr 1
    omega
  | group g t _ _ ih1 ih2 =>
    intro p i rest hp
    rw [List.cons_append, parenScan]
    simp only [if_true]
    rw [if_neg (by omega), List.append_assoc, ih1 _ _ _ (by omega), List.cons_append, parenScan]
    simp only [show (')' : Char) ≠ '(' by decide, if_false, if_true]
    rw [if_neg (by omega), ih2 _ _ _ (by omega)]
    simp only [List.length_cons, List.length_append, Nat.add_sub_cancel]
    congr 1
    omega

theorem scan_closes : ∀ (n : Nat) (t : Str) (p i e : Nat), t.length < n → parenScan (p + 1) i t = some e →
    ∃ g r, t = g ++ ')' :: r ∧ Balanced g ∧ (p = 0 → e = i + g.length + 1) ∧ (0 < p → parenScan p (i + g.length + 1) r = some e) := by
  intro n
  induction n with
  | zero => intro t p i e h; omega
  | succ n ih =>
    intro t p i e hl h
    cases t with
    | nil => simp [parenScan] at h
    | cons c t =>
      simp only [List.length_cons] at hl
      rw [parenScan] at h
      by_cases h1 : c = '('
      · subst h1
        simp only [if_true] at h
        rw [if_neg (by omega)] at h
        obtain ⟨g, r, rfl, hg, _, k⟩ := ih t (p + 1) (i + 1) e (by omega) h
        have k := k (by omega)
        obtain ⟨g2, r2, rfl, hg2, k1, k2⟩ := ih r p _ e (by simp only [List.length_append, List.length_cons] at hl; omega) k
        refine ⟨'(' :: (g ++ ')' :: g2), r2, by simp, .group g g2 hg hg2, fun hp => ?_, fun hp => ?_⟩
        · rw [k1 hp]
          simp only [List.length_cons, List.length_append]
          omega
        · rw [← k2 hp]
          simp only [List.length_cons, List.length_append]
          congr 1
          omega
      · by_cases h2 : c = ')'
        · subst h2
          simp only [h1, if_false, if_true, Nat.add_sub_cancel] at h
          refine ⟨[], t, rfl, .nil, fun hp => ?_, fun hp => ?_⟩
          · subst hp
            simp only [if_true, Option.some.injEq] at h
            simp [← h]
          · rw [if_neg (by omega)] at h
            simpa using h
        · simp only [h1, h2, if_false] at h
          rw [if_neg (by omega)] at h
          obtain ⟨g, r, rfl, hg, k1, k2⟩ := ih t p (i + 1) e (by omega) h
          refine ⟨c :: g, r, rfl, .char c g h1 h2 hg, fun hp => ?_, fun hp => ?_⟩
          · rw [k1 hp]
            simp only [List.length_cons]
            omega
          · rw [← k2 hp]
            simp only [List.length_cons]
            congr 1
            omega

/-- where the parenthesis is closed -/
theorem closing_iff (t : Str) (e : Nat) : findClosingParen ('(' :: t) = .ok e ↔ ∃ g r, t = g ++ ')' :: r ∧ Balanced g ∧ e = g.length + 1 := by
  simp only [findClosingParen, ne_eq, not_true, if_false]
  constructor
  · intro h
    cases hp : parenScan 1 0 t with
    | none => rw [hp] at h; cases h
    | some k =>
      rw [hp] at h
      cases h
      obtain ⟨g, r, h1, h2, h3, _⟩ := scan_closes _ t 0 0 e (Nat.lt_succ_self _) hp
      exact ⟨g, r, h1, h2, by rw [h3 rfl]; omega⟩
  · rintro ⟨g, r, rfl, hg, rfl⟩
    rw [scan_balanced hg 1 0 _ (by omega), parenScan]
    simp

theorem without_free {s rest : Str} {gs : List Str} (h : Without s rest gs) : '(' ∉ rest := by
  induction h with
  | nil => simp
  | char c t rest gs hc _ ih => simp only [List.mem_cons, not_or]; exact ⟨fun h => hc h.symm, ih⟩
  | group g t rest gs _ _ ih => exact ih

theorem balanced_unique (g r g' r' : Str) (hg : Balanced g) (hg' : Balanced g') (h : g ++ ')' :: r = g' ++ ')' :: r') : g = g' ∧ r = r' := by
  have h1 := (closing_iff (g ++ ')' :: r) _).2 ⟨g, r, rfl, hg, rfl⟩
  have h2 := (closing_iff (g ++ ')' :: r) _).2 ⟨g', r', h, hg', rfl⟩
  rw [h1] at h2
  simp only [Except.ok.injEq] at h2
  obtain ⟨h3, h4⟩ := List.append_inj h (by omega)
  exact ⟨h3, (List.cons.inj h4).2⟩

/-- the scan takes the groups out, checks them, and goes on with the rest -/
theorem scan_groups : ∀ (n : Nat) (s term : Str), s.length < n → (scan term s = .ok () ↔ ∃ rest gs, Without s rest gs ∧ (∀ g ∈ gs, scan [] g = .ok ()) ∧ scan term rest = .ok ()) := by
  intro n
  induction n with
  | zero => intro s term h; omega
  | succ n ih =>
    intro s term hl
    cases s with
    | nil =>
      constructor
      · intro h
        exact ⟨[], [], .nil, by simp, h⟩
      · rintro ⟨rest, gs, h, _, h2⟩
        cases h
        exact h2
    | cons c t =>
      simp only [List.length_cons] at hl
      by_cases hc : c = '('
      · subst hc
        rw [scan_cons, if_pos rfl]
        cases hf : findClosingParen ('(' :: t) with
        | error e =>
          simp only [reduceCtorEq, false_iff]
          rintro ⟨rest, gs, h, _, _⟩
          cases h with
          | char _ _ rest gs hne _ => exact hne rfl
          | group g t rest gs hg _ =>
            rw [(closing_iff _ _).2 ⟨g, t, rfl, hg, rfl⟩] at hf
            cases hf
        | ok e =>
          obtain ⟨g, r, rfl, hg, rfl⟩ := (closing_iff t e).1 hf
          have ht : (g ++ ')' :: r).take (g.length + 1 - 1) = g := by simp
          have hd : (g ++ ')' :: r).drop (g.length + 1) = r := by
            rw [← List.drop_drop, List.drop_left]
            rfl
          have ir := ih r term (by simp only [List.length_append, List.length_cons] at hl; omega)
          simp only [ht, hd]
          constructor
          · intro h
            cases hi : scan [] g with
            | error e => rw [hi] at h; cases h
            | ok u =>
              rw [hi] at h
              obtain ⟨rest, gs, k1, k2, k3⟩ := ir.1 h
              refine ⟨rest, g :: gs, .group g r rest gs hg k1, fun x hx => ?_, k3⟩
              rcases List.mem_cons.1 hx with rfl | hx
              · exact hi
              · exact k2 x hx
          · rintro ⟨rest, gs, h, k2, k3⟩
            have key : ∃ gs', Without r rest gs' ∧ gs = g :: gs' := by
              generalize hs : '(' :: (g ++ ')' :: r) = s at h
              cases h with
              | nil => cases hs
              | char c t rest gs hne _ => exact absurd (List.cons.inj hs).1.symm hne
              | group g' t' _ gs' hg' hw =>
                obtain ⟨rfl, rfl⟩ := balanced_unique g r g' t' hg hg' (List.cons.inj hs).2
                exact ⟨gs', hw, rfl⟩
            obtain ⟨gs', hw, rfl⟩ := key
            rw [k2 g (by simp)]
            exact ir.2 ⟨rest, gs', hw, fun x hx => k2 x (by simp [hx]), k3⟩
      · have inv : ∀ rest gs, Without (c :: t) rest gs → ∃ rest', rest = c :: rest' ∧ Without t rest' gs := by
          intro rest gs h
          cases h with
          | char _ _ rest gs _ hw => exact ⟨rest, rfl, hw⟩
          | group => exact absurd rfl hc
        have step : ∀ (term' : Str) (P : Prop), (∀ x, scan term (c :: x) = .ok () ↔ P ∧ scan term' x = .ok ()) →
            (scan term (c :: t) = .ok () ↔ ∃ rest gs, Without (c :: t) rest gs ∧ (∀ g ∈ gs, scan [] g = .ok ()) ∧ scan term rest = .ok ()) := by
          intro term' P hP
          rw [hP, ih t term' (by omega)]
          constructor
          · rintro ⟨p, rest, gs, k1, k2, k3⟩
            exact ⟨c :: rest, gs, .char c t rest gs hc k1, k2, (hP rest).2 ⟨p, k3⟩⟩
          · rintro ⟨rest, gs, k1, k2, k3⟩
            obtain ⟨rest', rfl, k1'⟩ := inv rest gs k1
            obtain ⟨p, k3⟩ := (hP rest').1 k3
            exact ⟨p, rest', gs, k1', k2, k3⟩
        by_cases hs : c = '|' ∨ c = '&'
        · refine step [] (checkTerm term = .ok ()) (fun x => ?_)
          rw [scan_cons, if_neg hc, if_pos hs]
          cases checkTerm term with
          | error e => simp
          | ok u => simp
        · by_cases hb : c = '!'
          · refine step term True (fun x => ?_)
            rw [scan_cons, if_neg hc, if_neg hs, if_pos hb]
            simp
          · refine step (term ++ [c]) True (fun x => ?_)
            rw [scan_cons, if_neg hc, if_neg hs, if_neg hb]
            simp

theorem flat_iff (s : Str) (h : '(' ∉ s) : scan [] s = .ok () ↔ ∀ p ∈ pieces s, looseTerm p := by
  rw [scan_flat _ _ h]
  obtain ⟨p, ps, hps⟩ := List.exists_cons_of_ne_nil (pieces_ne s)
  rw [hps]
  constructor
  · rintro ⟨p', ps', h1, h2, h3⟩
    obtain ⟨rfl, rfl⟩ := List.cons.inj h1
    intro q hq
    rcases List.mem_cons.1 hq with rfl | hq
    · exact h2
    · exact h3 q hq
  · intro hall
    exact ⟨p, ps, rfl, hall p (by simp), fun q hq => hall q (by simp [hq])⟩

theorem without_shorter {s rest : Str} {gs : List Str} (h : Without s rest gs) : ∀ g ∈ gs, g.length < s.length := by
  induction h with
  | nil => simp
  | char c t rest gs hc _ ih =>
    intro g hg
    have := ih g hg
    simp only [List.length_cons]
    omega
  | group g t rest gs _ _ ih =>
    intro x hx
    simp only [List.length_cons, List.length_append]
    rcases List.mem_cons.1 hx with rfl | hx
    · omega
    · have := ih x hx
      omega

theorem scan_iff : ∀ (n : Nat) (s : Str), s.length < n → (scan [] s = .ok () ↔ Loose s) := by
  intro n
  induction n with
  | zero => intro s h; omega
  | succ n ih =>
    intro s hl
    rw [scan_groups _ s [] (Nat.lt_succ_self _)]
    constructor
    · rintro ⟨rest, gs, h1, h2, h3⟩
      exact .mk s rest gs h1 (fun g hg => (ih g (by have := without_shorter h1 g hg; omega)).1 (h2 g hg)) ((flat_iff rest (without_free h1)).1 h3)
    · rintro ⟨_, rest, gs, h1, h2, h3⟩
      exact ⟨rest, gs, h1, fun g hg => (ih g (by have := without_shorter h1 g hg; omega)).2 (h2 g hg), (flat_iff rest (without_free h1)).2 h3⟩

theorem strip_iff (s c : Str) : pyStrip (inClass pySpace) s = c ↔ Trimmed s c := by
  constructor
  · rintro rfl
    have h1 : s = s.takeWhile (inClass pySpace) ++ s.dropWhile (inClass pySpace) := List.takeWhile_append_dropWhile.symm
    have h2 : s.dropWhile (inClass pySpace) = pyStrip (inClass pySpace) s ++ ((s.dropWhile (inClass pySpace)).reverse.takeWhile (inClass pySpace)).reverse := by
      rw [pyStrip, ← List.reverse_append, List.takeWhile_append_dropWhile, List.reverse_reverse]
    have all : ∀ (l : Str), ∀ x ∈ l.takeWhile (inClass pySpace), inClass pySpace x = true := fun l x hx => by
      have := List.all_takeWhile (p := inClass pySpace) (l := l)
      rw [List.all_eq_true] at this
      exact this x hx
    refine ⟨_, _, h1.trans (by rw [← h2]), all s, fun x hx => all _ x (List.mem_reverse.1 hx), fun x t hx => ?_, fun t x hx => ?_⟩
    · rw [hx] at h2
      have h3 := List.head?_dropWhile_not (inClass pySpace) s
      rw [h2] at h3
      simpa using h3
    · exact SchemaSpec.pyStrip_last _ s x (by rw [hx]; simp)
  · rintro ⟨a, b, rfl, ha, hb, h1, h2⟩
    by_cases hc : c = []
    · subst hc
      have : (a ++ ([] ++ b)).dropWhile (inClass pySpace) = [] := by
        have nil : ∀ l : Str, (∀ x ∈ l, inClass pySpace x = true) → l.dropWhile (inClass pySpace) = [] := by
          intro l
          induction l with
          | nil => intro _; rfl
          | cons x l ih =>
            intro h
            rw [List.dropWhile_cons_of_pos (h x (by simp))]
            exact ih (fun y hy => h y (by simp [hy]))
        refine nil _ (fun x hx => ?_)
        rcases List.mem_append.1 hx with hx | hx
        · exact ha x hx
        · exact hb x (by simpa using hx)
      rw [pyStrip, this]
      rfl
    · refine SchemaSpec.pyStrip_mid _ a c b ha hb ?_ ?_
      · obtain ⟨x, t, h⟩ := List.exists_cons_of_ne_nil hc
        exact ⟨x, t, h, h1 x t h⟩
      · exact ⟨c.dropLast, c.getLast hc, (List.dropLast_concat_getLast hc).symm, h2 _ _ (List.dropLast_concat_getLast hc).symm⟩

theorem criteria_iff (s : Str) : validateCriteria s = .ok () ↔ ∃ c, Trimmed s c ∧ Loose c := by
  rw [show validateCriteria s = scan [] (pyStrip (inClass pySpace) s) from rfl, scan_iff _ _ (Nat.lt_succ_self _)]
  constructor
  · intro h
    exact ⟨_, (strip_iff s _).1 rfl, h⟩
  · rintro ⟨c, h1, h2⟩
    rwa [(strip_iff s c).2 h1]

theorem split_key (s : Str) : (pySplit '#' s = [s] ∧ '#' ∉ s) ∨ ∃ a r, s = a ++ '#' :: r ∧ '#' ∉ a ∧ pySplit '#' s = a :: pySplit '#' r := by
  by_cases h : '#' ∈ s
  · obtain ⟨a, r, rfl, ha⟩ := List.eq_append_cons_of_mem h
    exact .inr ⟨a, r, rfl, ha, split_app a r ha⟩
  · exact .inl ⟨split_one s h, h⟩

theorem split_single (s b : Str) (h : pySplit '#' s = [b]) : s = b ∧ '#' ∉ b := by
  rcases split_key s with ⟨h1, h2⟩ | ⟨a, r, _, _, h1⟩
  · rw [h1] at h
    cases h
    exact ⟨rfl, h2⟩
  · rw [h1] at h
    exact absurd (List.cons.inj h).2 (pySplit_ne_nil _ _)

theorem split_more (s a b : Str) (l : List Str) (h : pySplit '#' s = a :: b :: l) : ∃ r, s = a ++ '#' :: r ∧ '#' ∉ a ∧ pySplit '#' r = b :: l := by
  rcases split_key s with ⟨h1, h2⟩ | ⟨a', r, h2, h3, h1⟩
  · rw [h1] at h
    cases h
  · rw [h1] at h
    obtain ⟨rfl, h4⟩ := List.cons.inj h
    exact ⟨r, h2, h3, h4⟩

end Laurelin.GuideP

namespace Laurelin.Props
open Laurelin Spec Abnf GuideP BaseRules

/-- **C77, exactly which criteria are accepted** -/
theorem c77_criteria_exact (s : Str) : validateCriteria s = .ok () ↔ ∃ c, Guide.Trimmed s c ∧ Guide.Loose c := criteria_iff s

/-- **C77, Guide, exactly** -/
theorem c77_guide_exact (s : Str) : validateGuide s = .ok () ↔ Guide.looseGuide s := by
  constructor
  · intro h
    unfold validateGuide at h
    split at h
    · rename_i cls crit hs
      obtain ⟨r, rfl, h1, h2⟩ := split_more _ _ _ _ hs
      obtain ⟨rfl, h3⟩ := split_single _ _ h2
      split at h
      · cases h
      · rename_i hp
        rw [Bool.not_eq_false, Rx.prefix_iff, class_loose] at hp
        obtain ⟨c, k1, k2⟩ := (criteria_iff _).1 h
        exact ⟨cls, r, c, rfl, h1, h3, hp, k1, k2⟩
    · cases h
  · rintro ⟨cls, crit, c, rfl, h1, h2, h3, h4, h5⟩
    rw [((c77_guide_class cls crit [] h1 h2 (by simp)).1 h3)]
    exact (criteria_iff _).2 ⟨c, h4, h5⟩

/-- **C77, Enhanced Guide, exactly** -/
theorem c77_enhanced_guide_exact (s : Str) : validateEnhancedGuide s = .ok () ↔ Guide.looseEnhancedGuide s := by
  constructor
  · intro h
    unfold validateEnhancedGuide at h
    split at h
    · rename_i cls crit sub hs
      obtain ⟨r, rfl, h1, h2⟩ := split_more _ _ _ _ hs
      obtain ⟨r2, rfl, h3, h4⟩ := split_more _ _ _ _ h2
      obtain ⟨rfl, h5⟩ := split_single _ _ h4
      split at h
      · cases h
      · rename_i hp
        rw [Bool.not_eq_false, Rx.prefix_iff, class_loose] at hp
        split at h
        · cases h
        · rename_i hsub
          obtain ⟨c, k1, k2⟩ := (criteria_iff _).1 h
          exact ⟨cls, crit, c, r2, _, rfl, h1, h3, h5, hp, k1, k2, (strip_iff r2 _).1 rfl, Classical.not_not.1 hsub⟩
    · cases h
  · rintro ⟨cls, crit, c, sub, d, rfl, h1, h2, h3, h4, h5, h6, h7, h8⟩
    rw [← class_loose, ← Rx.prefix_iff] at h4
    rw [validateEnhancedGuide, GuideP.split_app _ _ h1, GuideP.split_app _ _ h2, GuideP.split_one _ h3]
    simp only [h4, Bool.true_eq_false, if_false, (strip_iff sub d).2 h7]
    rw [if_neg (fun hn => hn h8)]
    exact (criteria_iff _).2 ⟨c, h5, h6⟩

/-- accepted, with criteria in parentheses; the second is not in the language of RFC 4517 -/
example : Guide.looseGuide (str "person#!(sn$EQ|(?true))&cn$GE") ∧ Guide.looseGuide (str "person#sn(?true)$EQ)") ∧ ¬ Guide.looseGuide (str "person#(sn)") := by
  refine ⟨(c77_guide_exact _).1 (by decide +kernel), (c77_guide_exact _).1 (by decide +kernel), fun h => ?_⟩
  have h := (c77_guide_exact _).2 h
  revert h
  decide +kernel

example : Guide.looseEnhancedGuide (str " person #(sn$EQ)|!(?true&cn$GE) # oneLevel") ∧ ¬ Guide.looseEnhancedGuide (str "person#sn$EQ#none") := by
  refine ⟨(c77_enhanced_guide_exact _).1 (by decide +kernel), fun h => ?_⟩
  have h := (c77_enhanced_guide_exact _).2 h
  revert h
  decide +kernel

end Laurelin.Props
