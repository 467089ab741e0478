import Verif.Spec.FoldMap
import Verif.Lemmas.PDict
namespace Laurelin.CIDict
open Laurelin.Spec PDict
variable {K V : Type} [DecidableEq K] (lower : K → K)

/-- representation invariant -/
structure Inv (d : CIDict K V) : Prop where
  nk : (PDict.keys d.keys).Nodup
  nd : (PDict.keys d.data).Nodup
  cas : ∀ x k, d.keys.get? x = some k → lower k = x ∧ ∃ v, d.data.get? k = some v

def abs (d : CIDict K V) : FoldMap K V :=
  fun x => match d.keys.get? x with
    | none => none
    | some k => d.data.get? k

theorem inv_empty : Inv lower (empty : CIDict K V) :=
  ⟨by simp [empty, PDict.keys], by simp [empty, PDict.keys], by simp [empty]⟩

theorem inv_set (d : CIDict K V) (k : K) (v : V) (h : Inv lower d) : Inv lower (d.setItem lower k v) := by
  refine ⟨nodup_set _ _ _ h.nk, nodup_set _ _ _ h.nd, ?_⟩
  intro x k' hx
  simp only [setItem, get?_set] at *
  by_cases h1 : x = lower k
  · simp only [h1, if_true, Option.some.injEq] at hx
    subst hx; exact ⟨h1.symm, v, by simp⟩
  · simp only [h1, if_false] at hx
    obtain ⟨h2, w, h3⟩ := h.cas _ _ hx
    by_cases h4 : k' = k
    · exact ⟨h2, v, by simp [h4]⟩
    · exact ⟨h2, w, by simp [h4, h3]⟩

theorem abs_set (d : CIDict K V) (k : K) (v : V) (h : Inv lower d) :
    abs (d.setItem lower k v) = (abs d).put lower k v := by
  funext x
  simp only [abs, setItem, FoldMap.put, get?_set]
  have := h.cas
  grind

theorem getItem_eq (d : CIDict K V) (h : Inv lower d) (k : K) :
    d.getItem lower k = match abs d (lower k) with | some v => .ok v | none => .error .keyError := by
  have := h.cas
  simp only [getItem, abs]
  grind

theorem del_none (d : CIDict K V) (h : Inv lower d) (k : K) (hk : abs d (lower k) = none) :
    d.delItem lower k = .error .keyError := by
  have := h.cas
  simp only [abs, delItem] at *
  grind

theorem del_some (d : CIDict K V) (h : Inv lower d) (k : K) (v : V) (hk : abs d (lower k) = some v) :
    ∃ d', d.delItem lower k = .ok d' ∧ Inv lower d' ∧ abs d' = (abs d).drop lower k := by
  have hc := h.cas
  simp only [abs, delItem] at *
  split at hk
  · simp at hk
  · rename_i k' hk'
    simp only [hk', hk]
    refine ⟨_, rfl, ⟨nodup_erase _ _ h.nk, nodup_erase _ _ h.nd, ?_⟩, ?_⟩
    · intro x k'' hx
      simp only [get?_erase _ _ _ h.nk, get?_erase _ _ _ h.nd] at *
      have := hc (lower k) k' hk'
      grind
    · funext x
      simp only [abs, FoldMap.drop, get?_erase _ _ _ h.nk, get?_erase _ _ _ h.nd]
      have := hc (lower k) k' hk'
      grind

theorem update_ok (kvs : List (K × V)) (d : CIDict K V) (h : Inv lower d) :
    Inv lower (d.update lower kvs) ∧
    abs (d.update lower kvs) = kvs.foldl (fun acc kv => acc.put lower kv.1 kv.2) (abs d) := by
  induction kvs generalizing d with
  | nil => exact ⟨h, rfl⟩
  | cons a t ih =>
    have := ih (d.setItem lower a.1 a.2) (inv_set lower d _ _ h)
    rw [abs_set lower d _ _ h] at this
    exact this

theorem step_ok (d : CIDict K V) (h : Inv lower d) (op : DictOp K V) :
    Inv lower (d.step lower op).1 ∧ abs (d.step lower op).1 = ((abs d).step lower op).1 ∧
    (d.step lower op).2 = ((abs d).step lower op).2 := by
  cases op with
  | set k v => exact ⟨inv_set lower d k v h, abs_set lower d k v h, rfl⟩
  | del k =>
    simp only [step, FoldMap.step]
    cases hk : abs d (lower k) with
    | none => rw [del_none lower d h k hk]; exact ⟨h, rfl, rfl⟩
    | some v =>
      obtain ⟨d', h1, h2, h3⟩ := del_some lower d h k v hk
      rw [h1]; exact ⟨h2, h3, rfl⟩
  | setdefault k v =>
    simp only [step, FoldMap.step, setDefault, getItem_eq lower d h]
    cases hk : abs d (lower k) with
    | none => exact ⟨inv_set lower d k v h, abs_set lower d k v h, rfl⟩
    | some w => exact ⟨h, rfl, rfl⟩
  | update kvs => exact ⟨(update_ok lower kvs d h).1, (update_ok lower kvs d h).2, rfl⟩
  | clear => exact ⟨inv_empty lower, by funext x; simp [step, clear, abs, empty, FoldMap.step], rfl⟩
  | get k =>
    simp only [step, FoldMap.step, getItem_eq lower d h]
    cases hk : abs d (lower k) with
    | none => exact ⟨h, rfl, rfl⟩
    | some w => exact ⟨h, rfl, rfl⟩

theorem run_ok (ops : List (DictOp K V)) (d : CIDict K V) (h : Inv lower d) :
    Inv lower (d.run lower ops).1 ∧ abs (d.run lower ops).1 = ((abs d).run lower ops).1 ∧
    (d.run lower ops).2 = ((abs d).run lower ops).2 := by
  induction ops generalizing d with
  | nil => exact ⟨h, rfl, rfl⟩
  | cons op ops ih =>
    have h1 := step_ok lower d h op
    have h2 := ih _ h1.1
    simp only [run, FoldMap.run]
    rw [← h1.2.1, ← h1.2.2, h2.2.1, h2.2.2] 
    exact ⟨h2.1, rfl, rfl⟩

/-- keys of the underlying dict all come from writes, and (consistent casing) point to themselves -/
def Self (d : CIDict K V) : Prop := ∀ k ∈ PDict.keys d.data, d.keys.get? (lower k) = some k

def From (d : CIDict K V) (W : List K) : Prop := ∀ k ∈ PDict.keys d.data, k ∈ W

theorem self_set (d : CIDict K V) (W : List K) (k : K) (v : V) (hs : Self lower d) (hf : From d W)
    (hc : ∀ a ∈ W, ∀ b ∈ W, lower a = lower b → a = b) (hk : k ∈ W) :
    Self lower (d.setItem lower k v) ∧ From (d.setItem lower k v) W := by
  constructor
  · intro x hx
    simp only [setItem, mem_keys_set, get?_set] at *
    rcases hx with rfl | hx
    · simp
    · have := hc x (hf x hx) k hk
      have := hs x hx
      grind
  · intro x hx
    simp only [setItem, mem_keys_set] at hx
    rcases hx with rfl | hx
    · exact hk
    · exact hf x hx

theorem self_update (kvs : List (K × V)) (d : CIDict K V) (W : List K) (hs : Self lower d) (hf : From d W)
    (hc : ∀ a ∈ W, ∀ b ∈ W, lower a = lower b → a = b) (hk : ∀ k ∈ kvs.map Prod.fst, k ∈ W) :
    Self lower (d.update lower kvs) ∧ From (d.update lower kvs) W := by
  induction kvs generalizing d with
  | nil => exact ⟨hs, hf⟩
  | cons a t ih =>
    have h1 := self_set lower d W a.1 a.2 hs hf hc (hk _ (by simp))
    exact ih _ h1.1 h1.2 (fun k hk' => hk k (by simp at hk' ⊢; right; exact hk'))

theorem self_step (d : CIDict K V) (W : List K) (hi : Inv lower d) (hs : Self lower d) (hf : From d W)
    (hc : ∀ a ∈ W, ∀ b ∈ W, lower a = lower b → a = b) (op : DictOp K V)
    (hk : ∀ k ∈ writtenKeys op, k ∈ W) :
    Self lower (d.step lower op).1 ∧ From (d.step lower op).1 W := by
  cases op with
  | set k v => exact self_set lower d W k v hs hf hc (hk k (by simp [writtenKeys]))
  | update kvs => exact self_update lower kvs d W hs hf hc hk
  | clear => constructor <;> · intro x hx; simp [step, clear, empty, PDict.keys] at hx
  | get k => simp only [step]; split <;> exact ⟨hs, hf⟩
  | setdefault k v =>
    simp only [step, setDefault]
    split
    · exact ⟨hs, hf⟩
    · exact self_set lower d W k v hs hf hc (hk k (by simp [writtenKeys]))
  | del k =>
    simp only [step, delItem]
    cases h1 : d.keys.get? (lower k) with
    | none => exact ⟨hs, hf⟩
    | some k' =>
      cases h2 : d.data.get? k' with
      | none => simp only [h2]; exact ⟨hs, hf⟩
      | some w =>
        simp only [h2]
        constructor
        · intro x hx
          have hx' : x ∈ PDict.keys d.data := (keys_erase_sublist _ _).mem hx
          have hne : x ≠ k' := by
            rintro rfl
            exact (get?_none_iff _ _).1 (get?_erase_self d.data x hi.nd) hx
          simp only [get?_erase _ _ _ hi.nk]
          have := hs x hx'
          grind
        · intro x hx
          exact hf x ((keys_erase_sublist _ _).mem hx)

theorem self_run (ops : List (DictOp K V)) (d : CIDict K V) (W : List K) (hi : Inv lower d) (hs : Self lower d)
    (hf : From d W) (hc : ∀ a ∈ W, ∀ b ∈ W, lower a = lower b → a = b)
    (hk : ∀ k ∈ ops.flatMap writtenKeys, k ∈ W) : Self lower (d.run lower ops).1 := by
  induction ops generalizing d with
  | nil => exact hs
  | cons op ops ih =>
    have h1 := self_step lower d W hi hs hf hc op (fun k h => hk k (by simp [h]))
    exact ih _ (step_ok lower d hi op).1 h1.1 h1.2 (fun k h => hk k (by
      simp only [List.flatMap_cons, List.mem_append]; exact Or.inr h))

theorem abs_empty : abs (empty : CIDict K V) = fun _ => none := by
  funext x; simp [abs, empty]

end Laurelin.CIDict
