import Verif.Model.SchemaSpec
import Verif.Spec.Rfc4512
import Verif.Lemmas.Regex
/-! Matching with groups, and why a description can be read in one way only. -/
namespace Laurelin.SchemaSpec
open Laurelin Laurelin.Syntax Spec Spec.Abnf

/-! ### The matcher finds exactly the matches -/

theorem mem_ends (r : Rx) (s u v : Str) : (u, v) ∈ ends r s ↔ s = u ++ v ∧ r.Lang u := by
  induction s generalizing r u with
  | nil =>
    rw [ends]
    by_cases h : r.nullable = true
    · have := (Rx.nullable_iff r).1 h
      simp only [h, if_true, List.mem_singleton, Prod.mk.injEq]
      constructor
      · rintro ⟨rfl, rfl⟩; exact ⟨rfl, this⟩
      · rintro ⟨h1, h2⟩; simp at h1; exact h1
    · simp only [h, if_false, Bool.false_eq_true]
      constructor
      · intro h; cases h
      · rintro ⟨h1, h2⟩; simp at h1; rw [h1.1] at h2; exact absurd ((Rx.nullable_iff r).2 h2) h
  | cons c t ih =>
    rw [ends]
    simp only [List.mem_append, List.mem_map, Prod.mk.injEq]
    constructor
    · rintro (h | ⟨⟨a, b⟩, h, rfl, rfl⟩)
      · split at h
        · rename_i hn
          simp at h; obtain ⟨rfl, rfl⟩ := h
          exact ⟨rfl, (Rx.nullable_iff r).1 hn⟩
        · cases h
      · obtain ⟨rfl, h2⟩ := (ih _ _).1 h
        exact ⟨rfl, (Rx.deriv_iff r c a).1 h2⟩
    · rintro ⟨h1, h2⟩
      cases u with
      | nil =>
        left
        simp only [List.nil_append] at h1
        rw [if_pos ((Rx.nullable_iff r).2 h2), ← h1]; simp
      | cons d u =>
        simp at h1; obtain ⟨rfl, rfl⟩ := h1
        exact Or.inr ⟨(u, v), (ih _ _).2 ⟨rfl, (Rx.deriv_iff r c u).2 h2⟩, rfl, rfl⟩

/-- `M g c u`: the expression matches the text `u` and captures `c`. -/
def M : G → Caps → Str → Prop
  | .rx r, c, u => c = [] ∧ r.Lang u
  | .grp n r, c, u => c = [(n, u)] ∧ r.Lang u
  | .seq a b, c, u => ∃ c1 c2 u1 u2, c = c1 ++ c2 ∧ u = u1 ++ u2 ∧ M a c1 u1 ∧ M b c2 u2
  | .opt a, c, u => (c = [] ∧ u = []) ∨ M a c u

theorem mem_run (g : G) (s : Str) (c : Caps) (v : Str) : (c, v) ∈ g.run s ↔ ∃ u, s = u ++ v ∧ M g c u := by
  induction g generalizing s c v with
  | rx r =>
    simp only [G.run, List.mem_map, Prod.mk.injEq, M]
    constructor
    · rintro ⟨⟨a, b⟩, h, rfl, rfl⟩
      obtain ⟨h1, h2⟩ := (mem_ends _ _ _ _).1 h
      exact ⟨a, h1, rfl, h2⟩
    · rintro ⟨u, h1, rfl, h2⟩
      exact ⟨(u, v), (mem_ends _ _ _ _).2 ⟨h1, h2⟩, rfl, rfl⟩
  | grp n r =>
    simp only [G.run, List.mem_map, Prod.mk.injEq, M]
    constructor
    · rintro ⟨⟨a, b⟩, h, rfl, rfl⟩
      obtain ⟨h1, h2⟩ := (mem_ends _ _ _ _).1 h
      exact ⟨a, h1, rfl, h2⟩
    · rintro ⟨u, h1, rfl, h2⟩
      exact ⟨(u, v), (mem_ends _ _ _ _).2 ⟨h1, h2⟩, rfl, rfl⟩
  | seq a b iha ihb =>
    simp only [G.run, List.mem_flatMap, List.mem_map, Prod.mk.injEq, M]
    constructor
    · rintro ⟨⟨c1, v1⟩, h1, ⟨c2, v2⟩, h2, rfl, rfl⟩
      obtain ⟨u1, rfl, m1⟩ := (iha _ _ _).1 h1
      obtain ⟨u2, h, m2⟩ := (ihb _ _ _).1 h2
      simp only at h
      exact ⟨u1 ++ u2, by rw [h, List.append_assoc], c1, c2, u1, u2, rfl, rfl, m1, m2⟩
    · rintro ⟨_, rfl, c1, c2, u1, u2, rfl, rfl, m1, m2⟩
      exact ⟨(c1, u2 ++ v), (iha _ _ _).2 ⟨u1, by simp, m1⟩, (c2, v), (ihb _ _ _).2 ⟨u2, rfl, m2⟩, rfl, rfl⟩
  | opt a iha =>
    simp only [G.run, List.mem_append, List.mem_singleton, Prod.mk.injEq, M, iha]
    constructor
    · rintro (⟨u, h1, h2⟩ | ⟨rfl, rfl⟩)
      · exact ⟨u, h1, Or.inr h2⟩
      · exact ⟨[], rfl, Or.inl ⟨rfl, rfl⟩⟩
    · rintro ⟨u, h1, ⟨rfl, rfl⟩ | h2⟩
      · exact Or.inr ⟨rfl, h1.symm⟩
      · exact Or.inl ⟨u, h1, h2⟩

/-- matching a sequence -/
def MS : List G → Caps → Str → Prop
  | [], c, u => c = [] ∧ u = []
  | a :: l, c, u => ∃ c1 c2 u1 u2, c = c1 ++ c2 ∧ u = u1 ++ u2 ∧ M a c1 u1 ∧ MS l c2 u2

theorem M_cat (l : List G) (c : Caps) (u : Str) : M (.cat l) c u ↔ MS l c u := by
  induction l generalizing c u with
  | nil => simp [G.cat, M, MS, Rx.Lang, Abnf.lit]
  | cons a l ih => simp only [G.cat, M, MS, ih]

theorem MS_append (l l' : List G) (c : Caps) (u : Str) :
    MS (l ++ l') c u ↔ ∃ c1 c2 u1 u2, c = c1 ++ c2 ∧ u = u1 ++ u2 ∧ MS l c1 u1 ∧ MS l' c2 u2 := by
  induction l generalizing c u with
  | nil =>
    simp only [List.nil_append, MS]
    constructor
    · intro h; exact ⟨[], c, [], u, rfl, rfl, ⟨rfl, rfl⟩, h⟩
    · rintro ⟨_, _, _, _, rfl, rfl, ⟨rfl, rfl⟩, h⟩; exact h
  | cons a l ih =>
    simp only [List.cons_append, MS, ih]
    constructor
    · rintro ⟨c1, _, u1, _, rfl, rfl, h1, c2, c3, u2, u3, rfl, rfl, h2, h3⟩
      exact ⟨c1 ++ c2, c3, u1 ++ u2, u3, by simp, by simp, ⟨c1, c2, u1, u2, rfl, rfl, h1, h2⟩, h3⟩
    · rintro ⟨_, c3, _, u3, rfl, rfl, ⟨c1, c2, u1, u2, rfl, rfl, h1, h2⟩, h3⟩
      exact ⟨c1, c2 ++ c3, u1, u2 ++ u3, by simp, by simp, h1, c2, c3, u2, u3, rfl, rfl, h2, h3⟩

/-! ### Items -/

def Item.name : Item → Str
  | .kv _ n _ => n
  | .flag _ n => n
  | .choice _ n => n

def Item.keys : Item → List Str
  | .kv k _ _ => [k]
  | .flag k _ => [k]
  | .choice ks _ => ks

def Sp (a : Str) : Prop := a ≠ [] ∧ ∀ c ∈ a, c = ' '

theorem lang_sp (a : Str) : sp.Lang a ↔ Sp a := by
  rw [sp, Rx.lang_plus, Sp, Rx.Lang, Rx.many1_chr]
  simp

theorem lang_wsp (a : Str) : wsp.Lang a ↔ ∀ c ∈ a, c = ' ' := by
  rw [wsp, Rx.Lang, Rx.Lang, Rx.many_chr]
  simp

/-- `i.T o w`: the text `w` of an item; `o` is what its group captures, `none` when the item is absent. -/
def Item.T : Item → Option Str → Str → Prop
  | _, none, w => w = []
  | .kv key _ val, some v, w => ∃ a b, Sp a ∧ Sp b ∧ val.Lang v ∧ w = a ++ (key ++ (b ++ v))
  | .flag key _, some v, w => ∃ a, Sp a ∧ v = w ∧ w = a ++ key
  | .choice keys _, some v, w => ∃ a, Sp a ∧ v ∈ keys ∧ w = a ++ v

def Item.caps (i : Item) (o : Option Str) : Caps := (o.map (fun v => (i.name, v))).toList

theorem M_item (i : Item) (c : Caps) (u : Str) : M i.g c u ↔ ∃ o, c = i.caps o ∧ i.T o u := by
  cases i with
  | kv key name val =>
    simp only [Item.g, M, M_cat, MS, Rx.lang_lit]
    constructor
    · rintro (⟨rfl, rfl⟩ | ⟨_, _, a, _, rfl, rfl, ⟨rfl, h1⟩, _, _, k, _, rfl, rfl, ⟨rfl, h2⟩, _, _, b, _, rfl, rfl, ⟨rfl, h3⟩, _, _, v, _, rfl, rfl, ⟨rfl, h4⟩, rfl, rfl⟩)
      · exact ⟨none, rfl, rfl⟩
      · rw [lang_sp] at h1 h3
        rw [show k = key from h2]
        exact ⟨some v, rfl, a, b, h1, h3, h4, by simp⟩
    · rintro ⟨o, rfl, h⟩
      cases o with
      | none => exact Or.inl ⟨rfl, h⟩
      | some v =>
        obtain ⟨a, b, h1, h2, h3, rfl⟩ := h
        right
        exact ⟨[], _, a, _, rfl, rfl, ⟨rfl, (lang_sp _).2 h1⟩, [], _, key, _, rfl, rfl, ⟨rfl, rfl⟩, [], _, b, _, rfl, rfl, ⟨rfl, (lang_sp _).2 h2⟩,
          [(name, v)], [], v, [], rfl, by simp, ⟨rfl, h3⟩, rfl, rfl⟩
  | flag key name =>
    simp only [Item.g, M, Rx.lang_cat, List.map, cats, Abnf.cat, Rx.lang_lit, lang_sp]
    constructor
    · rintro (⟨rfl, rfl⟩ | ⟨rfl, a, k, rfl, h1, h2⟩)
      · exact ⟨none, rfl, rfl⟩
      · exact ⟨some (a ++ k), rfl, a, h1, rfl, by rw [show k = key from h2]⟩
    · rintro ⟨o, rfl, h⟩
      cases o with
      | none => exact Or.inl ⟨rfl, h⟩
      | some v =>
        obtain ⟨a, h1, rfl, rfl⟩ := h
        exact Or.inr ⟨rfl, a, key, rfl, h1, rfl⟩
  | choice keys name =>
    simp only [Item.g, M, M_cat, MS, Rx.lang_any_lit]
    constructor
    · rintro (⟨rfl, rfl⟩ | ⟨_, _, a, _, rfl, rfl, ⟨rfl, h1⟩, _, _, v, _, rfl, rfl, ⟨rfl, h4⟩, rfl, rfl⟩)
      · exact ⟨none, rfl, rfl⟩
      · exact ⟨some v, rfl, a, (lang_sp _).1 h1, h4, by simp⟩
    · rintro ⟨o, rfl, h⟩
      cases o with
      | none => exact Or.inl ⟨rfl, h⟩
      | some v =>
        obtain ⟨a, h1, h2, rfl⟩ := h
        exact Or.inr ⟨[], _, a, _, rfl, rfl, ⟨rfl, (lang_sp _).2 h1⟩, [(name, v)], [], v, [], rfl, by simp, ⟨rfl, h2⟩, rfl, rfl⟩

/-- the texts of a list of items -/
def TL : List Item → List (Option Str) → Str → Prop
  | [], [], w => w = []
  | i :: l, o :: os, w => ∃ u v, w = u ++ v ∧ i.T o u ∧ TL l os v
  | _, _, _ => False

def capsL : List Item → List (Option Str) → Caps
  | i :: l, o :: os => i.caps o ++ capsL l os
  | _, _ => []

theorem MS_items (l : List Item) (c : Caps) (u : Str) : MS (l.map Item.g) c u ↔ ∃ os, c = capsL l os ∧ TL l os u := by
  induction l generalizing c u with
  | nil =>
    simp only [List.map, MS]
    constructor
    · rintro ⟨rfl, rfl⟩; exact ⟨[], rfl, rfl⟩
    · rintro ⟨os, rfl, h⟩
      cases os with
      | nil => exact ⟨rfl, h⟩
      | cons => exact h.elim
  | cons i l ih =>
    simp only [List.map, MS, M_item, ih]
    constructor
    · rintro ⟨_, _, u1, u2, rfl, rfl, ⟨o, rfl, h1⟩, os, rfl, h2⟩
      exact ⟨o :: os, rfl, u1, u2, rfl, h1, h2⟩
    · rintro ⟨os, rfl, h⟩
      cases os with
      | nil => exact h.elim
      | cons o os =>
        obtain ⟨u1, u2, rfl, h1, h2⟩ := h
        exact ⟨_, _, u1, u2, rfl, rfl, ⟨o, rfl, h1⟩, os, rfl, h2⟩

/-- what follows the items -/
def Tail (t : Str) : Prop := ∃ e w, extensions.Lang e ∧ (∀ c ∈ w, c = ' ') ∧ t = e ++ (w ++ [')'])

/-- the complete matches of a description -/
def Match (items : List Item) (o : Str) (os : List (Option Str)) (s : Str) : Prop :=
  ∃ a w t, (∀ c ∈ a, c = ' ') ∧ numericoid.Lang o ∧ TL items os w ∧ Tail t ∧ s = '(' :: (a ++ (o ++ (w ++ t)))

theorem M_description (items : List Item) (c : Caps) (s : Str) :
    M (description items) c s ↔ ∃ o os, c = (str "oid", o) :: capsL items os ∧ Match items o os s := by
  rw [description, M_cat, List.append_assoc, MS_append]
  simp only [MS_append, MS_items, MS, M, Rx.lang_lit, lang_wsp]
  constructor
  · rintro ⟨_, _, _, _, rfl, rfl, ⟨_, _, p, _, rfl, rfl, ⟨rfl, hp⟩, _, _, a, _, rfl, rfl, ⟨rfl, ha⟩, _, _, o, _, rfl, rfl, ⟨rfl, ho⟩, rfl, rfl⟩,
      _, _, w, _, rfl, rfl, ⟨os, rfl, hw⟩, _, _, e, _, rfl, rfl, ⟨rfl, he⟩, _, _, b, _, rfl, rfl, ⟨rfl, hb⟩, _, _, q, _, rfl, rfl, ⟨rfl, hq⟩, rfl, rfl⟩
    rw [show p = ['('] from hp, show q = [')'] from hq]
    exact ⟨o, os, by simp, a, w, e ++ (b ++ [')']), ha, ho, hw, ⟨e, b, he, hb, rfl⟩, by simp⟩
  · rintro ⟨o, os, rfl, a, w, _, ha, ho, hw, ⟨e, b, he, hb, rfl⟩, rfl⟩
    exact ⟨[(str "oid", o)], capsL items os, '(' :: (a ++ o), w ++ (e ++ (b ++ [')'])), rfl, by simp,
      ⟨[], _, ['('], a ++ o, rfl, rfl, ⟨rfl, rfl⟩, [], _, a, o, rfl, rfl, ⟨rfl, ha⟩, [(str "oid", o)], [], o, [], rfl, by simp, ⟨rfl, ho⟩, rfl, rfl⟩,
      capsL items os, [], w, _, by simp, rfl, ⟨os, rfl, hw⟩, [], [], e, _, rfl, rfl, ⟨rfl, he⟩, [], [], b, [')'], rfl, rfl, ⟨rfl, hb⟩, [], [], [')'], [], rfl, rfl,
      ⟨rfl, rfl⟩, rfl, rfl⟩

/-! ### Unique reading -/

/-- what can follow a value -/
def Fol (r : Str) : Prop := ∃ c t, r = c :: t ∧ (c = ' ' ∨ c = ')')

theorem Sp.fol (a t : Str) (h : Sp a) : Fol (a ++ t) := by
  obtain ⟨h1, h2⟩ := h
  cases a with
  | nil => exact absurd rfl h1
  | cons c a => exact ⟨c, a ++ t, rfl, Or.inl (h2 c (by simp))⟩

theorem Item.T.fol {i : Item} {o : Option Str} {w r : Str} (h : i.T o w) (hr : Fol r) : Fol (w ++ r) := by
  cases o with
  | none => have : w = [] := by cases i <;> exact h
            rw [this]; exact hr
  | some v =>
    cases i with
    | kv key name val => obtain ⟨a, b, h1, _, _, rfl⟩ := h; rw [List.append_assoc]; exact h1.fol _ _
    | flag key name => obtain ⟨a, h1, _, rfl⟩ := h; rw [List.append_assoc]; exact h1.fol _ _
    | choice keys name => obtain ⟨a, h1, _, rfl⟩ := h; rw [List.append_assoc]; exact h1.fol _ _

theorem TL.fol {l : List Item} {os : List (Option Str)} {w r : Str} (h : TL l os w) (hr : Fol r) : Fol (w ++ r) := by
  induction l generalizing os w with
  | nil => cases os with
    | nil => rw [show w = [] from h]; exact hr
    | cons => exact h.elim
  | cons i l ih => cases os with
    | nil => exact h.elim
    | cons o os =>
      obtain ⟨u, v, rfl, h1, h2⟩ := h
      rw [List.append_assoc]; exact h1.fol (ih h2)

theorem Tail.fol {t : Str} (h : Tail t) : Fol t := by
  obtain ⟨e, w, he, hw, rfl⟩ := h
  have hw' : Fol (w ++ [')']) := by
    cases w with
    | nil => exact ⟨')', [], rfl, Or.inr rfl⟩
    | cons c w => exact ⟨c, w ++ [')'], rfl, Or.inl (hw c (by simp))⟩
  rw [extensions, Rx.lang_opt, Rx.lang_cat] at he
  rcases he with rfl | ⟨p, q, rfl, hp, hq⟩
  · exact hw'
  · rw [Rx.lang_lit] at hp
    rw [show p = [' '] from hp]
    exact ⟨' ', _, rfl, Or.inl rfl⟩

def keyc (c : Char) : Bool := alpha c || c == '-' || c == '_'

/-- the first word -/
def hw (s : Str) : Str := (s.dropWhile (fun c => c == ' ')).takeWhile keyc

theorem dropWhile_sp (a s : Str) (h : ∀ c ∈ a, c = ' ') : (a ++ s).dropWhile (fun c => c == ' ') = s.dropWhile (fun c => c == ' ') := by
  induction a with
  | nil => rfl
  | cons c a ih =>
    have : c = ' ' := h c (by simp)
    subst this
    simp only [List.cons_append, List.dropWhile]
    simpa using ih (fun c hc => h c (by simp [hc]))

/-- a keyword: not empty, of keyword characters, not an extension name -/
def GoodKey (k : Str) : Prop := k ≠ [] ∧ (∀ c ∈ k, keyc c = true) ∧ k.take 2 ≠ str "X-"

theorem hw_key (a k r : Str) (ha : ∀ c ∈ a, c = ' ') (hk : GoodKey k) (hr : Fol r) : hw (a ++ (k ++ r)) = k := by
  rw [hw, dropWhile_sp _ _ ha]
  obtain ⟨h1, h2, _⟩ := hk
  obtain ⟨c, t, rfl, hc⟩ := hr
  have hc' : keyc c = false := by rcases hc with rfl | rfl <;> decide
  have key : ∀ k : Str, (∀ c ∈ k, keyc c = true) → (k ++ c :: t).takeWhile keyc = k := by
    intro k hk
    induction k with
    | nil => simp [hc']
    | cons d k ih => simp only [List.cons_append, List.takeWhile, hk d (by simp)]; rw [ih (fun c hc => hk c (by simp [hc]))]
  cases k with
  | nil => exact absurd rfl h1
  | cons d k =>
    have : (d == ' ') = false := by
      have := h2 d (by simp)
      cases hd : d == ' ' with
      | false => rfl
      | true => simp at hd; subst hd; simp [keyc, alpha, range] at this
    rw [List.cons_append, List.dropWhile, this]
    simpa using key (d :: k) h2

theorem Item.T.hw {i : Item} {v w r : Str} (h : i.T (some v) w) (hr : Fol r) (hk : ∀ k ∈ i.keys, GoodKey k) : hw (w ++ r) ∈ i.keys := by
  cases i with
  | kv key name val =>
    obtain ⟨a, b, h1, h2, _, rfl⟩ := h
    simp only [List.append_assoc]
    rw [hw_key a key _ h1.2 (hk key (by simp [Item.keys])) (h2.fol _ _)]
    simp [Item.keys]
  | flag key name =>
    obtain ⟨a, h1, _, rfl⟩ := h
    simp only [List.append_assoc]
    rw [hw_key a key _ h1.2 (hk key (by simp [Item.keys])) hr]
    simp [Item.keys]
  | choice keys name =>
    obtain ⟨a, h1, h2, rfl⟩ := h
    simp only [List.append_assoc]
    rw [hw_key a v _ h1.2 (hk v h2) hr]
    exact h2

theorem Tail.hw {t : Str} (h : Tail t) : hw t = [] ∨ (hw t).take 2 = str "X-" := by
  obtain ⟨e, w, he, hw', rfl⟩ := h
  rw [extensions, Rx.lang_opt, Rx.lang_cat] at he
  rcases he with rfl | he
  · left
    rw [List.nil_append, SchemaSpec.hw, dropWhile_sp _ _ hw']
    decide
  · right
    simp only [List.map, cats, Abnf.cat] at he
    obtain ⟨p, _, rfl, hp, x, y, rfl, hx, _⟩ := he
    rw [Rx.lang_lit] at hp
    rw [show p = [' '] from hp]
    rw [xstring, Rx.lang_cat] at hx
    simp only [List.map, cats, Abnf.cat] at hx
    obtain ⟨q, z, rfl, hq, _⟩ := hx
    rw [Rx.lang_lit] at hq
    rw [show q = str "X-" from hq]
    simp [SchemaSpec.hw, List.dropWhile, List.takeWhile, keyc, alpha, range]

theorem TL.hw {l : List Item} {os : List (Option Str)} {w t : Str} (h : TL l os w) (ht : Tail t)
    (hk : ∀ i ∈ l, ∀ k ∈ i.keys, GoodKey k) :
    hw (w ++ t) = [] ∨ (hw (w ++ t)).take 2 = str "X-" ∨ ∃ i ∈ l, hw (w ++ t) ∈ i.keys := by
  induction l generalizing os w with
  | nil => cases os with
    | nil =>
      rw [show w = [] from h, List.nil_append]
      rcases ht.hw with h | h
      · exact Or.inl h
      · exact Or.inr (Or.inl h)
    | cons => exact h.elim
  | cons i l ih => cases os with
    | nil => exact h.elim
    | cons o os =>
      obtain ⟨u, v, rfl, h1, h2⟩ := h
      rw [List.append_assoc]
      cases o with
      | none =>
        have : u = [] := by cases i <;> exact h1
        rw [this, List.nil_append]
        rcases ih h2 (fun i hi => hk i (by simp [hi])) with h | h | ⟨j, hj, h⟩
        · exact Or.inl h
        · exact Or.inr (Or.inl h)
        · exact Or.inr (Or.inr ⟨j, by simp [hj], h⟩)
      | some v' =>
        exact Or.inr (Or.inr ⟨i, by simp, h1.hw (h2.fol ht.fol) (hk i (by simp))⟩)

/-- Values whose end can be told: they stop at a space or a parenthesis, at their closing parenthesis, or at their closing quote. -/
def Tok (v : Str) : Prop :=
  (∃ c t, v = c :: t ∧ c ≠ '(' ∧ c ≠ '\'' ∧ ∀ d ∈ v, d ≠ ' ' ∧ d ≠ ')') ∨
  (∃ m, v = '(' :: (m ++ [')']) ∧ ')' ∉ m) ∨
  (∃ m, v = '\'' :: (m ++ ['\'']) ∧ '\'' ∉ m)

theorem split_at (p : Char → Prop) (a a' r r' : Str) (c c' : Char) (hc : p c) (hc' : p c') (ha : ∀ d ∈ a, ¬ p d) (ha' : ∀ d ∈ a', ¬ p d)
    (h : a ++ c :: r = a' ++ c' :: r') : a = a' := by
  induction a generalizing a' with
  | nil => cases a' with
    | nil => rfl
    | cons d a' =>
      simp at h
      exact absurd (h.1 ▸ hc) (ha' d (by simp))
  | cons d a ih => cases a' with
    | nil =>
      simp at h
      exact absurd (h.1 ▸ hc') (ha d (by simp))
    | cons d' a' =>
      simp at h
      rw [h.1, ih a' (fun d hd => ha d (by simp [hd])) (fun d hd => ha' d (by simp [hd])) h.2]

theorem Tok.eq {v v' r r' : Str} (h : Tok v) (h' : Tok v') (hr : Fol r) (hr' : Fol r') (he : v ++ r = v' ++ r') : v = v' := by
  rcases h with ⟨c, t, rfl, hc1, hc2, hd⟩ | ⟨m, rfl, hm⟩ | ⟨m, rfl, hm⟩ <;>
  rcases h' with ⟨c', t', rfl, hc1', hc2', hd'⟩ | ⟨m', rfl, hm'⟩ | ⟨m', rfl, hm'⟩
  · obtain ⟨e, r, rfl, h1⟩ := hr
    obtain ⟨e', r', rfl, h2⟩ := hr'
    refine split_at (fun c => c = ' ' ∨ c = ')') _ _ _ _ _ _ h1 h2 ?_ ?_ he
    · intro d h; have := hd d h; simp [this]
    · intro d h; have := hd' d h; simp [this]
  · simp at he; exact absurd he.1 hc1
  · simp at he; exact absurd he.1 hc2
  · simp at he; exact absurd he.1.symm hc1'
  · simp only [List.cons_append, List.append_assoc, List.cons.injEq, true_and, List.nil_append] at he
    rw [split_at (fun c => c = ')') m m' _ _ _ _ rfl rfl (fun d hd e => hm (e ▸ hd)) (fun d hd e => hm' (e ▸ hd)) he]
  · simp at he
  · simp at he; exact absurd he.1.symm hc2'
  · simp at he
  · simp only [List.cons_append, List.append_assoc, List.cons.injEq, true_and, List.nil_append] at he
    rw [split_at (fun c => c = '\'') m m' _ _ _ _ rfl rfl (fun d hd e => hm (e ▸ hd)) (fun d hd e => hm' (e ▸ hd)) he]

theorem Tok.head {v : Str} (h : Tok v) : ∃ c t, v = c :: t ∧ c ≠ ' ' := by
  rcases h with ⟨c, t, rfl, hc1, hc2, hd⟩ | ⟨m, rfl, hm⟩ | ⟨m, rfl, hm⟩
  · exact ⟨c, t, rfl, (hd c (by simp)).1⟩
  · exact ⟨_, _, rfl, by decide⟩
  · exact ⟨_, _, rfl, by decide⟩

theorem GoodKey.head {k : Str} (h : GoodKey k) : ∃ c t, k = c :: t ∧ c ≠ ' ' := by
  obtain ⟨h1, h2, _⟩ := h
  cases k with
  | nil => exact absurd rfl h1
  | cons c t => exact ⟨c, t, rfl, by rintro rfl; have := h2 ' ' (by simp); revert this; decide⟩

/-- cancelling leading spaces -/
theorem sp_cancel (a a' x x' : Str) (ha : ∀ c ∈ a, c = ' ') (ha' : ∀ c ∈ a', c = ' ') (hx : ∃ c t, x = c :: t ∧ c ≠ ' ')
    (hx' : ∃ c t, x' = c :: t ∧ c ≠ ' ') (h : a ++ x = a' ++ x') : x = x' ∧ a = a' := by
  obtain ⟨c, t, rfl, hc⟩ := hx
  obtain ⟨c', t', rfl, hc'⟩ := hx'
  have : a = a' := split_at (fun c => c ≠ ' ') a a' t t' c c' hc hc' (fun d hd => by simp [ha d hd]) (fun d hd => by simp [ha' d hd]) h
  subst this
  exact ⟨List.append_cancel_left h, rfl⟩

def Item.GoodVal : Item → Prop
  | .kv _ _ val => ∀ v, val.Lang v → Tok v
  | _ => True

theorem head_append {x : Str} (y : Str) (h : ∃ c t, x = c :: t ∧ c ≠ ' ') : ∃ c t, x ++ y = c :: t ∧ c ≠ ' ' := by
  obtain ⟨c, t, rfl, hc⟩ := h; exact ⟨c, t ++ y, rfl, hc⟩

/-- A present item is read in one way. -/
theorem Item.T.unique {i : Item} {v v' w w' r r' : Str} (h : i.T (some v) w) (h' : i.T (some v') w') (hr : Fol r) (hr' : Fol r')
    (hk : ∀ k ∈ i.keys, GoodKey k) (hv : i.GoodVal) (he : w ++ r = w' ++ r') : v = v' ∧ r = r' := by
  cases i with
  | kv key name val =>
    have hkey := hk key (by simp [Item.keys])
    obtain ⟨a, b, h1, h2, h3, rfl⟩ := h
    obtain ⟨a', b', h1', h2', h3', rfl⟩ := h'
    simp only [List.append_assoc] at he
    have e1 := (sp_cancel _ _ _ _ h1.2 h1'.2 (head_append _ hkey.head) (head_append _ hkey.head) he).1
    have e2 := List.append_cancel_left e1
    have e3 := (sp_cancel _ _ _ _ h2.2 h2'.2 (head_append _ (hv v h3).head) (head_append _ (hv v' h3').head) e2).1
    have e4 := (hv v h3).eq (hv v' h3') hr hr' e3
    subst e4
    exact ⟨rfl, List.append_cancel_left e3⟩
  | flag key name =>
    have hkey := hk key (by simp [Item.keys])
    obtain ⟨a, h1, rfl, rfl⟩ := h
    obtain ⟨a', h1', rfl, rfl⟩ := h'
    simp only [List.append_assoc] at he
    obtain ⟨e1, rfl⟩ := sp_cancel _ _ _ _ h1.2 h1'.2 (head_append _ hkey.head) (head_append _ hkey.head) he
    exact ⟨rfl, List.append_cancel_left e1⟩
  | choice keys name =>
    have g := h; have g' := h'
    obtain ⟨a, h1, h2, rfl⟩ := h
    obtain ⟨a', h1', h2', rfl⟩ := h'
    simp only [List.append_assoc] at he
    have e0 : v = v' := by
      have := congrArg SchemaSpec.hw he
      rwa [hw_key a v r h1.2 (hk v h2) hr, hw_key a' v' r' h1'.2 (hk v' h2') hr'] at this
    subst e0
    have e1 := (sp_cancel _ _ _ _ h1.2 h1'.2 (head_append _ (hk v h2).head) (head_append _ (hk v h2).head) he).1
    exact ⟨rfl, List.append_cancel_left e1⟩

/-- the conditions on a list of items: keywords are good and pairwise different, values have a recognisable end -/
def GoodItems : List Item → Prop
  | [] => True
  | i :: l => (∀ k ∈ i.keys, GoodKey k) ∧ i.GoodVal ∧ (∀ k ∈ i.keys, ∀ j ∈ l, k ∉ j.keys) ∧ GoodItems l

theorem GoodItems.keys {l : List Item} (h : GoodItems l) : ∀ i ∈ l, ∀ k ∈ i.keys, GoodKey k := by
  induction l with
  | nil => simp
  | cons i l ih =>
    obtain ⟨h1, _, _, h4⟩ := h
    intro j hj
    simp at hj
    rcases hj with rfl | hj
    · exact h1
    · exact ih h4 j hj

theorem present_absent {i : Item} {l : List Item} {os os' : List (Option Str)} {v w u u' t t' : Str} (hg : GoodItems (i :: l))
    (h1 : i.T (some v) w) (h2 : TL l os u) (h3 : TL l os' u') (ht : Tail t) (ht' : Tail t') (he : (w ++ u) ++ t = u' ++ t') : False := by
  obtain ⟨g1, _, g3, g4⟩ := hg
  rw [List.append_assoc] at he
  have a := h1.hw (h2.fol ht.fol) g1
  rw [he] at a
  have gk := g1 _ a
  rcases h3.hw ht' g4.keys with b | b | ⟨j, hj, b⟩
  · exact gk.1 b
  · exact gk.2.2 b
  · exact g3 _ a j hj b

theorem TL.unique {l : List Item} (hg : GoodItems l) {os os' : List (Option Str)} {w w' t t' : Str} (h : TL l os w) (h' : TL l os' w')
    (ht : Tail t) (ht' : Tail t') (he : w ++ t = w' ++ t') : os = os' := by
  induction l generalizing os os' w w' with
  | nil =>
    cases os with
    | cons => exact h.elim
    | nil => cases os' with
      | cons => exact h'.elim
      | nil => rfl
  | cons i l ih =>
    cases os with
    | nil => exact h.elim
    | cons o os => cases os' with
      | nil => exact h'.elim
      | cons o' os' =>
        obtain ⟨u, v, rfl, h1, h2⟩ := h
        obtain ⟨u', v', rfl, h1', h2'⟩ := h'
        have nil : ∀ u, i.T none u → u = [] := by intro u h; cases i <;> exact h
        cases o with
        | none =>
          rw [nil u h1, List.nil_append] at he
          cases o' with
          | none =>
            rw [nil u' h1', List.nil_append] at he
            rw [ih hg.2.2.2 h2 h2' he]
          | some x' => exact (present_absent hg h1' h2' h2 ht' ht he.symm).elim
        | some x =>
          cases o' with
          | none =>
            rw [nil u' h1', List.nil_append] at he
            exact (present_absent hg h1 h2 h2' ht ht' he).elim
          | some x' =>
            rw [List.append_assoc, List.append_assoc] at he
            obtain ⟨rfl, e⟩ := h1.unique h1' (h2.fol ht.fol) (h2'.fol ht'.fol) hg.1 hg.2.1 he
            rw [ih hg.2.2.2 h2 h2' e]

theorem numericoid_chars {o : Str} (h : numericoid.Lang o) : o ≠ [] ∧ ∀ c ∈ o, digit c = true ∨ c = '.' := by
  rw [numericoid, Rx.lang_cat] at h
  simp only [List.map, cats] at h
  obtain ⟨u, v, rfl, h1, h2⟩ := h
  rw [Rx.lang_plus, Rx.Lang, Rx.many1_chr] at h1
  rw [Rx.lang_plus] at h2
  obtain ⟨l, _, rfl, hl⟩ := h2
  refine ⟨by simp [h1.1], ?_⟩
  intro c hc
  rw [List.mem_append] at hc
  rcases hc with hc | hc
  · exact Or.inl (h1.2 c hc)
  · obtain ⟨w, hw, hcw⟩ := List.mem_flatten.1 hc
    have := hl w hw
    rw [Rx.lang_cat] at this
    simp only [List.map, cats] at this
    obtain ⟨p, q, rfl, hp, hq⟩ := this
    rw [Rx.lang_lit] at hp
    rw [Rx.lang_plus, Rx.Lang, Rx.many1_chr] at hq
    rw [show p = ['.'] from hp] at hcw
    simp at hcw
    rcases hcw with rfl | hcw
    · exact Or.inr rfl
    · exact Or.inl (hq.2 c hcw)

theorem digit_not (c d : Char) (h : digit c = true ∨ c = '.') (hd : digit d = false ∧ d ≠ '.') : c ≠ d := by
  rintro rfl
  rcases h with h | h
  · rw [hd.1] at h; cases h
  · exact hd.2 h

theorem Tok.chars {o : Str} (h1 : o ≠ []) (h : ∀ c ∈ o, c ≠ ' ' ∧ c ≠ ')' ∧ c ≠ '(' ∧ c ≠ '\'') : Tok o := by
  cases o with
  | nil => exact absurd rfl h1
  | cons c t =>
    exact Or.inl ⟨c, t, rfl, (h c (by simp)).2.2.1, (h c (by simp)).2.2.2, fun d hd => ⟨(h d hd).1, (h d hd).2.1⟩⟩

theorem numericoid_tok {o : Str} (h : numericoid.Lang o) : Tok o := by
  obtain ⟨h1, h2⟩ := numericoid_chars h
  exact Tok.chars h1 (fun c hc => ⟨digit_not c _ (h2 c hc) (by decide), digit_not c _ (h2 c hc) (by decide),
    digit_not c _ (h2 c hc) (by decide), digit_not c _ (h2 c hc) (by decide)⟩)

/-- A description is read in one way only. -/
theorem Match.unique {items : List Item} (hg : GoodItems items) {o o' : Str} {os os' : List (Option Str)} {s : Str}
    (h : Match items o os s) (h' : Match items o' os' s) : o = o' ∧ os = os' := by
  obtain ⟨a, w, t, ha, ho, hw, ht, rfl⟩ := h
  obtain ⟨a', w', t', ha', ho', hw', ht', he⟩ := h'
  simp only [List.cons.injEq, true_and] at he
  have e1 := (sp_cancel _ _ _ _ ha ha' (head_append _ (numericoid_tok ho).head) (head_append _ (numericoid_tok ho').head) he).1
  have e2 := (numericoid_tok ho).eq (numericoid_tok ho') (hw.fol ht.fol) (hw'.fol ht'.fol) e1
  subst e2
  exact ⟨rfl, hw.unique hg hw' ht ht' (List.append_cancel_left e1)⟩

/-- What `match` gives, for a text that does not end in a newline. -/
theorem matchAnchored_some {items : List Item} (hg : GoodItems items) {s : Str} (hs : s.getLast? ≠ some '\n') (m : Caps) :
    (description items).matchAnchored s = some m ↔ ∃ o os, m = (str "oid", o) :: capsL items os ∧ Match items o os s := by
  have key : ∀ c v, (c, v) ∈ (description items).run s → (v == [] || v == ['\n']) = true → v = [] ∧ M (description items) c s := by
    intro c v h hv
    obtain ⟨u, rfl, hm⟩ := (mem_run _ _ _ _).1 h
    simp only [Bool.or_eq_true, beq_iff_eq] at hv
    rcases hv with rfl | rfl
    · exact ⟨rfl, by simpa using hm⟩
    · simp at hs
  rw [G.matchAnchored]
  constructor
  · intro h
    rw [Option.map_eq_some_iff] at h
    obtain ⟨⟨c, v⟩, h1, rfl⟩ := h
    have h2 := List.mem_of_find?_eq_some h1
    have h3 := List.find?_some h1
    obtain ⟨_, hm⟩ := key c v h2 h3
    exact (M_description _ _ _).1 hm
  · rintro ⟨o, os, rfl, hm⟩
    have hmem : (((str "oid", o) :: capsL items os), ([] : Str)) ∈ (description items).run s :=
      (mem_run _ _ _ _).2 ⟨s, by simp, (M_description _ _ _).2 ⟨o, os, rfl, hm⟩⟩
    cases hf : (description items).run s |>.find? (fun p => p.2 == [] || p.2 == ['\n']) with
    | none =>
      rw [List.find?_eq_none] at hf
      exact absurd rfl (hf _ hmem)
    | some p =>
      obtain ⟨c, v⟩ := p
      have hf' := List.find?_some hf
      obtain ⟨_, hm'⟩ := key c v (List.mem_of_find?_eq_some hf) hf'
      obtain ⟨o', os', rfl, hm''⟩ := (M_description _ _ _).1 hm'
      obtain ⟨rfl, rfl⟩ := hm.unique hg hm''
      rfl

end Laurelin.SchemaSpec
