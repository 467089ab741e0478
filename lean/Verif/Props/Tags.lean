import Verif.Model.Tags
import Verif.Lemmas.PDict
/-!
# C28 tagged objects
-/
namespace Laurelin.Props
open Laurelin Laurelin.Tags

/-- Specification: which creation (by position in the history) claimed the tag: the first one that asked for it. -/
def firstWith (t : Str) : List (Option Str) → Option Nat
  | [] => none
  | x :: xs => if x = some t then some 0 else (firstWith t xs).map (· + 1)

theorem Tags.run_tag (es : List (Option Str)) (st : St) (t : Str) :
    (st.run es).2.tagged.get? t = match st.tagged.get? t with
      | some o => some o
      | none => (firstWith t es).map (st.count + ·) := by
  induction es generalizing st with
  | nil => simp only [St.run, firstWith]; split <;> simp_all
  | cons e es ih =>
    simp only [St.run]
    rw [ih]
    unfold St.obj
    cases e with
    | none =>
      simp only [firstWith]
      split
      · rfl
      · simp only [reduceCtorEq, if_false, Option.map_map]; congr 1; funext x; simp; omega
    | some u =>
      simp only [firstWith]
      cases hu : st.tagged.get? u with
      | some o =>
        simp only []
        split
        · rfl
        · rename_i hn
          have : u ≠ t := by intro h; rw [h, hn] at hu; cases hu
          simp only [Option.some.injEq, this, if_false, Option.map_map]; congr 1; funext x; simp; omega
      | none =>
        simp only [PDict.get?_set]
        by_cases h : t = u
        · subst h; simp [hu]
        · have h' : u ≠ t := fun x => h x.symm
          simp only [h, if_false, Option.some.injEq, h', Option.map_map]
          split
          · rfl
          · congr 1; funext x; simp; omega

theorem Tags.run_count (es : List (Option Str)) (st : St) : (st.run es).2.count = st.count + es.length := by
  induction es generalizing st with
  | nil => rfl
  | cons e es ih =>
    simp only [St.run, List.length_cons]
    rw [ih]
    unfold St.obj
    cases e with
    | none => simp; omega
    | some u => simp only []; split <;> simp <;> omega

theorem Tags.run_append (es fs : List (Option Str)) (st : St) :
    (st.run (es ++ fs)).1 = (st.run es).1 ++ ((st.run es).2.run fs).1 ∧ (st.run (es ++ fs)).2 = ((st.run es).2.run fs).2 := by
  induction es generalizing st with
  | nil => exact ⟨rfl, rfl⟩
  | cons e es ih =>
    obtain ⟨a, b⟩ := ih (st.obj e).2
    simp only [St.run, List.cons_append]
    exact ⟨by rw [a], b⟩

/-- C28: after any history of object creations, `tag(t)` is the object of the first creation that asked for tag `t`, and raises `TagError` if
there was none. -/
theorem c28_tag (es : List (Option Str)) (t : Str) :
    (({} : St).run es).2.tag t = match firstWith t es with | some o => .ok o | none => .error .tagError := by
  unfold St.tag
  rw [Tags.run_tag]
  simp only [PDict.get?_nil]
  cases firstWith t es <;> simp

/-- C28: a creation is refused exactly when its tag was claimed before, with `TagError`; otherwise it returns the new object. -/
theorem c28_create (es : List (Option Str)) (tag : Option Str) :
    ((({} : St).run es).2.obj tag).1 =
      if ∃ t, tag = some t ∧ some t ∈ es then .error .tagError else .ok es.length := by
  have hmem : ∀ (t : Str) (es : List (Option Str)), (firstWith t es).isSome = true ↔ some t ∈ es := by
    intro t es
    induction es with
    | nil => simp [firstWith]
    | cons e es ih =>
      simp only [firstWith, List.mem_cons]
      split
      · rename_i h; simp [h]
      · rename_i h; rw [Option.isSome_map, ih]; simp [Ne.symm h]
  have hc : (({} : St).run es).2.count = es.length := by rw [Tags.run_count]; simp
  unfold St.obj
  cases tag with
  | none => simp [hc]
  | some t =>
    simp only [Option.some.injEq, exists_eq_left']
    rw [Tags.run_tag]
    simp only [PDict.get?_nil]
    have := hmem t es
    cases hf : firstWith t es with
    | none => simp [hf] at this; simp [this, hc]
    | some o => simp [hf] at this; simp [this]

/-- C28: later creations, refused or not, never change what a tag stands for. -/
theorem c28_stays (es fs : List (Option Str)) (t : Str) (o : Nat) (h : (({} : St).run es).2.tag t = .ok o) :
    (({} : St).run (es ++ fs)).2.tag t = .ok o := by
  rw [(Tags.run_append es fs {}).2]
  unfold St.tag at h ⊢
  rw [Tags.run_tag]
  cases hx : (({} : St).run es).2.tagged.get? t with
  | none => simp [hx] at h
  | some x => simpa [hx] using h

/-- two tags, a clash and an untagged object -/
example : (({} : St).run [some (str "a"), none, some (str "b"), some (str "a")]).1 = [.ok 0, .ok 1, .ok 2, .error .tagError] ∧
    (({} : St).run [some (str "a"), none, some (str "b"), some (str "a")]).2.tag (str "a") = .ok 0 := by decide

end Laurelin.Props
