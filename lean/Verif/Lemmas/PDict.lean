import Verif.Model.Basic
namespace Laurelin.PDict
variable {K V : Type} [DecidableEq K]

@[simp] theorem get?_nil (k : K) : get? ([] : PDict K V) k = none := rfl

theorem get?_set (d : PDict K V) (k x : K) (v : V) :
    get? (set d k v) x = if x = k then some v else get? d x := by
  induction d with
  | nil => simp [set, get?, eq_comm]
  | cons h t ih =>
    obtain ⟨a, w⟩ := h
    simp only [set]
    split <;> simp only [get?] <;> grind

theorem get?_erase_ne (d : PDict K V) (k x : K) (h : x ≠ k) :
    get? (erase d k) x = get? d x := by
  induction d with
  | nil => rfl
  | cons hd t ih =>
    obtain ⟨a, w⟩ := hd
    simp only [erase]
    split <;> simp only [get?] <;> grind

theorem mem_keys_iff (d : PDict K V) (k : K) : k ∈ keys d ↔ ∃ v, get? d k = some v := by
  induction d with
  | nil => simp [keys]
  | cons hd t ih =>
    obtain ⟨a, w⟩ := hd
    simp only [keys, List.map_cons, List.mem_cons, get?] at *
    by_cases h : a = k
    · simp [h]
    · simp [h, ih, eq_comm (a := k)]

theorem get?_none_iff (d : PDict K V) (k : K) : get? d k = none ↔ k ∉ keys d := by
  rw [mem_keys_iff]; cases get? d k <;> simp

theorem mem_keys_set (d : PDict K V) (k x : K) (v : V) :
    x ∈ keys (set d k v) ↔ x = k ∨ x ∈ keys d := by
  simp only [mem_keys_iff, get?_set]
  by_cases h : x = k <;> simp [h]

theorem nodup_set (d : PDict K V) (k : K) (v : V) (h : (keys d).Nodup) :
    (keys (set d k v)).Nodup := by
  induction d with
  | nil => simp [set, keys]
  | cons hd t ih =>
    obtain ⟨a, w⟩ := hd
    have hk := h
    simp only [keys, List.map_cons, List.nodup_cons] at h
    simp only [set]
    split
    · simpa [keys] using h
    · rename_i hne
      simp only [keys, List.map_cons, List.nodup_cons]
      refine ⟨?_, ih h.2⟩
      have := mem_keys_set t k a v
      simp only [keys] at this
      rw [this]
      rintro (h1 | h1)
      · exact hne h1
      · exact h.1 h1

theorem keys_erase_sublist (d : PDict K V) (k : K) : (keys (erase d k)).Sublist (keys d) := by
  induction d with
  | nil => simp [erase]
  | cons hd t ih =>
    obtain ⟨a, w⟩ := hd
    simp only [erase]
    split
    · simp [keys]
    · simpa [keys] using ih

theorem nodup_erase (d : PDict K V) (k : K) (h : (keys d).Nodup) : (keys (erase d k)).Nodup :=
  List.Nodup.sublist (keys_erase_sublist d k) h

theorem get?_erase_self (d : PDict K V) (k : K) (h : (keys d).Nodup) :
    get? (erase d k) k = none := by
  induction d with
  | nil => rfl
  | cons hd t ih =>
    obtain ⟨a, w⟩ := hd
    simp only [keys, List.map_cons, List.nodup_cons] at h
    simp only [erase]
    split
    · rename_i h1; subst h1
      rw [get?_none_iff]; exact h.1
    · rename_i h1; simp only [get?, h1, if_false]; exact ih h.2

theorem get?_erase (d : PDict K V) (k x : K) (h : (keys d).Nodup) :
    get? (erase d k) x = if x = k then none else get? d x := by
  by_cases hx : x = k
  · subst hx; simp [get?_erase_self d x h]
  · simp [hx, get?_erase_ne d k x hx]

theorem mem_iff_get? (d : PDict K V) (h : (keys d).Nodup) (k : K) (v : V) :
    (k, v) ∈ d ↔ get? d k = some v := by
  induction d with
  | nil => simp
  | cons hd t ih =>
    obtain ⟨a, w⟩ := hd
    simp only [keys, List.map_cons, List.nodup_cons] at h
    simp only [List.mem_cons, get?, Prod.mk.injEq]
    by_cases hk : a = k
    · subst hk
      simp only [true_and, if_true, Option.some.injEq]
      constructor
      · rintro (h1 | h1)
        · exact h1.symm
        · exact absurd (List.mem_map.2 ⟨(a, v), h1, rfl⟩) h.1
      · intro h1; exact Or.inl h1.symm
    · simp only [hk, if_false, ih h.2, eq_comm (a := k), false_and, false_or]

theorem mem_of_get? (d : PDict K V) (k : K) (v : V) (h : get? d k = some v) : (k, v) ∈ d := by
  induction d with
  | nil => simp at h
  | cons hd t ih =>
    obtain ⟨a, w⟩ := hd
    simp only [get?] at h
    split at h
    · simp_all
    · exact List.mem_cons_of_mem _ (ih h)

end Laurelin.PDict

namespace Laurelin
theorem filterMap_congr' {α β : Type} {f g : α → Option β} {l : List α} (h : ∀ x ∈ l, f x = g x) :
    l.filterMap f = l.filterMap g := by
  induction l with
  | nil => rfl
  | cons a t ih => rw [List.filterMap_cons, List.filterMap_cons, h a (by simp), ih (fun x hx => h x (by simp [hx]))]
end Laurelin
