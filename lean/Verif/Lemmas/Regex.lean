import Verif.Model.Regex
import Verif.Spec.Abnf
/-! The derivative matcher decides the language of an expression. -/
namespace Laurelin
namespace Rx
open Spec Spec.Abnf

/-- The language of an expression. -/
def Lang : Rx → Language
  | none => fun _ => False
  | eps => Abnf.lit []
  | cls p => chr p
  | seq a b => Abnf.cat a.Lang b.Lang
  | alt a b => Abnf.alt a.Lang b.Lang
  | star a => many a.Lang

theorem nullable_iff (r : Rx) : r.nullable = true ↔ r.Lang [] := by
  induction r with
  | none => simp [nullable, Lang]
  | eps => simp [nullable, Lang, Abnf.lit]
  | cls p => simp [nullable, Lang, chr]
  | seq a b iha ihb =>
    simp only [nullable, Lang, Abnf.cat, Bool.and_eq_true, iha, ihb]
    constructor
    · rintro ⟨h1, h2⟩; exact ⟨[], [], rfl, h1, h2⟩
    · rintro ⟨u, v, he, h1, h2⟩
      simp at he; obtain ⟨rfl, rfl⟩ := he; exact ⟨h1, h2⟩
  | alt a b iha ihb => simp [nullable, Lang, Abnf.alt, iha, ihb]
  | star a _ => simp only [nullable, Lang, many, true_iff]; exact ⟨[], rfl, by simp⟩

theorem many_cons (A : Language) (c : Char) (t : Str) : many A (c :: t) ↔ ∃ u v, t = u ++ v ∧ A (c :: u) ∧ many A v := by
  constructor
  · rintro ⟨l, he, hl⟩
    induction l with
    | nil => simp at he
    | cons w l ih =>
      cases w with
      | nil => exact ih (by simpa using he) (fun u hu => hl u (by simp [hu]))
      | cons d w =>
        simp at he
        obtain ⟨rfl, rfl⟩ := he
        exact ⟨w, l.flatten, rfl, hl _ (by simp), l, rfl, fun u hu => hl u (by simp [hu])⟩
  · rintro ⟨u, v, rfl, h1, l, rfl, h2⟩
    exact ⟨(c :: u) :: l, by simp, by simpa using ⟨h1, h2⟩⟩

theorem deriv_iff (r : Rx) (c : Char) (t : Str) : (r.deriv c).Lang t ↔ r.Lang (c :: t) := by
  induction r generalizing t with
  | none => simp [deriv, Lang]
  | eps => simp [deriv, Lang, Abnf.lit]
  | cls p =>
    simp only [deriv]
    split
    · simp only [Lang, Abnf.lit, chr]
      constructor
      · rintro rfl; exact ⟨c, rfl, by assumption⟩
      · rintro ⟨d, he, _⟩; simp at he; exact he.2
    · simp only [Lang, chr, false_iff]
      rintro ⟨d, he, hp⟩; simp at he; rw [← he.1] at hp; contradiction
  | seq a b iha ihb =>
    have key : (Abnf.cat (a.deriv c).Lang b.Lang) t ∨ (a.Lang [] ∧ b.Lang (c :: t)) ↔ (seq a b).Lang (c :: t) := by
      simp only [Lang, Abnf.cat]
      constructor
      · rintro (⟨u, v, rfl, h1, h2⟩ | ⟨h1, h2⟩)
        · exact ⟨c :: u, v, rfl, (iha u).1 h1, h2⟩
        · exact ⟨[], c :: t, rfl, h1, h2⟩
      · rintro ⟨u, v, he, h1, h2⟩
        cases u with
        | nil => right; simp at he; rw [he]; exact ⟨h1, h2⟩
        | cons d u =>
          simp at he; obtain ⟨rfl, rfl⟩ := he
          left; exact ⟨u, v, rfl, (iha u).2 h1, h2⟩
    rw [← key]
    simp only [deriv]
    split
    · rename_i hn
      simp only [Lang, Abnf.alt, ihb, (nullable_iff a).1 hn, true_and]
    · rename_i hn
      have : ¬ a.Lang [] := fun h => hn ((nullable_iff a).2 h)
      simp only [Lang, this, false_and, or_false]
  | alt a b iha ihb => simp [deriv, Lang, Abnf.alt, iha, ihb]
  | star a iha =>
    simp only [deriv, Lang, many_cons, Abnf.cat, iha]

theorem full_iff (r : Rx) (s : Str) : r.full s = true ↔ r.Lang s := by
  induction s generalizing r with
  | nil => exact nullable_iff r
  | cons c t ih => rw [full, ih, deriv_iff]

theorem prefix_iff (r : Rx) (s : Str) : r.prefixMatch s = true ↔ ∃ u v, s = u ++ v ∧ r.Lang u := by
  induction s generalizing r with
  | nil =>
    simp only [prefixMatch, nullable_iff]
    constructor
    · intro h; exact ⟨[], [], rfl, h⟩
    · rintro ⟨u, v, he, h⟩; simp at he; rw [he.1] at h; exact h
  | cons c t ih =>
    simp only [prefixMatch, Bool.or_eq_true, nullable_iff, ih, deriv_iff]
    constructor
    · rintro (h | ⟨u, v, rfl, h⟩)
      · exact ⟨[], c :: t, rfl, h⟩
      · exact ⟨c :: u, v, rfl, h⟩
    · rintro ⟨u, v, he, h⟩
      cases u with
      | nil => exact Or.inl h
      | cons d u => simp at he; obtain ⟨rfl, rfl⟩ := he; exact Or.inr ⟨u, v, rfl, h⟩

/-- `$`: the text, possibly followed by one newline -/
theorem anchored_iff (r : Rx) (s : Str) : r.anchored s = true ↔ r.Lang s ∨ ∃ w, s = w ++ ['\n'] ∧ r.Lang w := by
  simp only [anchored, Bool.or_eq_true, Bool.and_eq_true, full_iff, beq_iff_eq]
  constructor
  · rintro (h | ⟨h1, h2⟩)
    · exact Or.inl h
    · refine Or.inr ⟨s.dropLast, ?_, h2⟩
      obtain ⟨ys, rfl⟩ := List.getLast?_eq_some_iff.1 h1
      simp
  · rintro (h | ⟨w, rfl, h⟩)
    · exact Or.inl h
    · exact Or.inr (by simp [h])

theorem lang_lit (w : Str) : (lit w).Lang = Abnf.lit w := by
  funext s
  induction w generalizing s with
  | nil => rfl
  | cons c t ih =>
    cases t with
    | nil =>
      simp only [lit, Lang, chr, Abnf.lit, eq_iff_iff]
      constructor
      · rintro ⟨d, rfl, hd⟩; simp at hd; rw [hd]
      · rintro rfl; exact ⟨c, rfl, by simp⟩
    | cons d t =>
      simp only [lit, Lang, Abnf.cat, eq_iff_iff]
      simp only [chr]
      constructor
      · rintro ⟨u, v, rfl, ⟨e, rfl, he⟩, h⟩
        have := (ih v).mp h
        simp only [Abnf.lit] at this ⊢
        simp at he; rw [this, he]; rfl
      · intro h
        refine ⟨[c], d :: t, h, ⟨c, rfl, by simp⟩, ?_⟩
        exact (ih (d :: t)).mpr rfl

theorem lang_opt (a : Rx) : (opt a).Lang = Abnf.opt a.Lang := rfl

theorem lang_plus (a : Rx) : (plus a).Lang = many1 a.Lang := by
  funext s
  simp only [plus, Lang, Abnf.cat, many, many1, eq_iff_iff]
  constructor
  · rintro ⟨u, v, rfl, h1, l, rfl, h2⟩
    exact ⟨u :: l, by simp, by simp, by simpa using ⟨h1, h2⟩⟩
  · rintro ⟨l, hn, rfl, h⟩
    cases l with
    | nil => exact absurd rfl hn
    | cons u l => exact ⟨u, l.flatten, by simp, h u (by simp), l, rfl, fun x hx => h x (by simp [hx])⟩

theorem lang_cat (l : List Rx) : (cat l).Lang = Abnf.cats (l.map Lang) := by
  induction l with
  | nil => rfl
  | cons a l ih =>
    cases l with
    | nil => rfl
    | cons b l => simp only [cat, Lang, List.map_cons, Abnf.cats] at ih ⊢; rw [ih]

theorem lang_any (l : List Rx) (s : Str) : (any l).Lang s ↔ ∃ r ∈ l, r.Lang s := by
  induction l with
  | nil => simp [any, Lang]
  | cons a l ih =>
    cases l with
    | nil => simp [any]
    | cons b l => simp only [any, Lang, Abnf.alt, ih]; simp

theorem lang_any_lit (l : List Str) : (any (l.map lit)).Lang = oneOf l := by
  funext s
  simp only [lang_any, oneOf, eq_iff_iff, List.mem_map]
  constructor
  · rintro ⟨r, ⟨w, hw, rfl⟩, h⟩
    rw [lang_lit] at h; rw [show s = w from h]; exact hw
  · intro h; exact ⟨lit s, ⟨s, h, rfl⟩, by rw [lang_lit]; rfl⟩

/-- `many` of single characters: a text all of whose characters are in the set -/
theorem many_chr (p : Char → Bool) (s : Str) : many (chr p) s ↔ ∀ c ∈ s, p c = true := by
  induction s with
  | nil => simp only [List.not_mem_nil, false_implies, implies_true, iff_true]; exact ⟨[], rfl, by simp⟩
  | cons c t ih =>
    rw [many_cons]
    constructor
    · rintro ⟨u, v, rfl, ⟨d, he, hp⟩, h⟩
      simp at he; obtain ⟨rfl, rfl⟩ := he
      simp only [List.nil_append] at ih ⊢
      intro x hx; simp at hx
      rcases hx with rfl | hx
      · exact hp
      · exact ih.1 h x hx
    · intro h
      exact ⟨[], t, rfl, ⟨c, rfl, h c (by simp)⟩, ih.2 (fun x hx => h x (by simp [hx]))⟩

theorem many1_iff (A : Language) (s : Str) : many1 A s ↔ ∃ u v, s = u ++ v ∧ A u ∧ many A v := by
  constructor
  · rintro ⟨l, hn, rfl, h⟩
    cases l with
    | nil => exact absurd rfl hn
    | cons u l => exact ⟨u, l.flatten, by simp, h u (by simp), l, rfl, fun x hx => h x (by simp [hx])⟩
  · rintro ⟨u, v, rfl, h1, l, rfl, h2⟩
    exact ⟨u :: l, by simp, by simp, by simpa using ⟨h1, h2⟩⟩

theorem many1_chr (p : Char → Bool) (s : Str) : many1 (chr p) s ↔ s ≠ [] ∧ ∀ c ∈ s, p c = true := by
  rw [many1_iff]
  constructor
  · rintro ⟨u, v, rfl, ⟨c, rfl, hc⟩, h⟩
    refine ⟨by simp, ?_⟩
    have := (many_chr p v).1 h
    intro x hx; simp at hx
    rcases hx with rfl | hx
    · exact hc
    · exact this x hx
  · rintro ⟨hn, h⟩
    cases s with
    | nil => exact absurd rfl hn
    | cons c t => exact ⟨[c], t, rfl, ⟨c, rfl, h c (by simp)⟩, (many_chr p t).2 (fun x hx => h x (by simp [hx]))⟩

end Rx
end Laurelin
