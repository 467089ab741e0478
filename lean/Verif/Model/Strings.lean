import Verif.Model.Basic
/-!
Python's string builtins used by the modelled code (builtin semantics, not code of the repo).
-/
namespace Laurelin

/-- `s.split(c)` for a one-character separator -/
def pySplit (c : Char) : Str → List Str
  | [] => [[]]
  | x :: t =>
    if x = c then [] :: pySplit c t
    else match pySplit c t with
      | [] => [[x]]
      | h :: r => (x :: h) :: r

/-- `s.split(c, 1)`: the text before and after the first separator, or `none` when there is none -/
def splitFirst (c : Char) : Str → Option (Str × Str)
  | [] => none
  | x :: t => if x = c then some ([], t) else (splitFirst c t).map (fun q => (x :: q.1, q.2))

/-- `sep.join(l)` -/
def pyJoin (sep : Str) : List Str → Str
  | [] => []
  | [x] => x
  | x :: y :: l => x ++ sep ++ pyJoin sep (y :: l)

/-- `s.startswith(p)` -/
def startsWith (s p : Str) : Bool := p.isPrefixOf s

/-- `s.endswith(p)` -/
def endsWith (s p : Str) : Bool := p.isSuffixOf s

/-- `s.strip(chars)`, with the set of characters as a predicate -/
def pyStrip (p : Char → Bool) (s : Str) : Str := ((s.dropWhile p).reverse.dropWhile p).reverse

theorem pySplit_ne_nil (c : Char) (s : Str) : pySplit c s ≠ [] := by
  cases s with
  | nil => simp [pySplit]
  | cons x t =>
    simp only [pySplit]
    split
    · simp
    · split <;> simp

theorem pyJoin_cons (sep x : Str) (l : List Str) (h : l ≠ []) : pyJoin sep (x :: l) = x ++ sep ++ pyJoin sep l := by
  cases l with
  | nil => exact absurd rfl h
  | cons y l => rfl

theorem join_split (c : Char) (s : Str) : pyJoin [c] (pySplit c s) = s := by
  induction s with
  | nil => rfl
  | cons x t ih =>
    simp only [pySplit]
    split
    · rename_i h
      rw [pyJoin_cons _ _ _ (pySplit_ne_nil c t), ih, h]; rfl
    · split
      · rename_i h; exact absurd h (pySplit_ne_nil c t)
      · rename_i h r hs
        rw [hs] at ih
        cases r with
        | nil => simpa [pyJoin] using ih
        | cons y r => simp only [pyJoin] at ih ⊢; simp [← ih]

theorem mem_split (c : Char) (s : Str) : ∀ x ∈ pySplit c s, c ∉ x := by
  induction s with
  | nil => simp [pySplit]
  | cons a t ih =>
    simp only [pySplit]
    split
    · intro x hx
      rcases List.mem_cons.1 hx with rfl | hx
      · simp
      · exact ih x hx
    · rename_i hac
      split
      · simp [Ne.symm hac]
      · rename_i h r hs
        intro x hx
        rcases List.mem_cons.1 hx with rfl | hx
        · have := ih h (by simp [hs])
          simp [Ne.symm hac, this]
        · exact ih x (by simp [hs, hx])

theorem split_none (c : Char) (s : Str) (h : c ∉ s) : pySplit c s = [s] := by
  induction s with
  | nil => rfl
  | cons x t ih =>
    have hx : x ≠ c := fun e => h (by simp [e])
    simp [pySplit, hx, ih (fun e => h (by simp [e]))]

theorem split_app (c : Char) (x s : Str) (h : c ∉ x) : pySplit c (x ++ c :: s) = x :: pySplit c s := by
  induction x with
  | nil => simp [pySplit]
  | cons a t ih =>
    have hx : a ≠ c := fun e => h (by simp [e])
    simp [pySplit, hx, ih (fun e => h (by simp [e]))]

theorem split_join (c : Char) (l : List Str) (hne : l ≠ []) (h : ∀ x ∈ l, c ∉ x) : pySplit c (pyJoin [c] l) = l := by
  induction l with
  | nil => exact absurd rfl hne
  | cons x l ih =>
    cases l with
    | nil => exact split_none c x (h x (by simp))
    | cons y l =>
      have := ih (by simp) (fun z hz => h z (by simp [hz]))
      simp only [pyJoin] at this ⊢
      rw [List.append_assoc, List.singleton_append, split_app c x _ (h x (by simp)), this]

theorem splitFirst_some (c : Char) (s a b : Str) : splitFirst c s = some (a, b) ↔ c ∉ a ∧ s = a ++ c :: b := by
  induction s generalizing a with
  | nil => simp [splitFirst]
  | cons x t ih =>
    simp only [splitFirst]
    split
    · rename_i h
      subst h
      constructor
      · rintro h; cases h; simp
      · rintro ⟨h1, h2⟩
        cases a with
        | nil => simp at h2; simp [h2]
        | cons y a => simp at h2; exact absurd (by simp [h2.1]) h1
    · rename_i h
      cases a with
      | nil => simp [h]
      | cons y a =>
        have := ih a
        cases hs : splitFirst c t with
        | none => simp [hs] at this ⊢; intro h1 h2 h3 h4; exact this h2 h4
        | some q =>
          rw [hs] at this
          simp at this
          simp only [Option.map_some, Option.some.injEq, Prod.mk.injEq, List.cons.injEq, List.mem_cons, not_or, List.cons_append]
          constructor
          · rintro ⟨⟨rfl, rfl⟩, rfl⟩
            have := this.1 rfl
            exact ⟨⟨fun e => h e.symm, this.1⟩, rfl, this.2⟩
          · rintro ⟨⟨h1, h2⟩, rfl, h4⟩
            have := this.2 ⟨h2, h4⟩
            simp [this]

theorem splitFirst_none (c : Char) (s : Str) : splitFirst c s = none ↔ c ∉ s := by
  induction s with
  | nil => simp [splitFirst]
  | cons x t ih =>
    simp only [splitFirst]
    split
    · rename_i h; simp [h]
    · rename_i h; simp [ih, Ne.symm h]

end Laurelin
