import Verif.Spec.Matching
import Verif.Model.Modify
import Verif.Lemmas.CaseIgnoreDict
set_option linter.unusedSectionVars false
namespace Laurelin
variable {V : Type} [DecidableEq V]

theorem listIndex_eq (a : V) (l : List V) (i : Nat) :
    AttrType.listIndex a i l = match l.findIdx? (fun x => decide (x = a)) with
      | some j => .ok (i + j) | none => .error .valueError := by
  induction l generalizing i with
  | nil => simp [AttrType.listIndex]
  | cons x xs ih =>
    simp only [AttrType.listIndex, List.findIdx?_cons]
    by_cases h : x = a
    · simp [h]
    · simp only [h, if_false, ih, decide_false]
      cases List.findIdx? (fun x => decide (x = a)) xs <;> simp <;> omega

theorem indexLoop_eq (prepare : V → Except Err V) (doMatch : V → V → Except Err Bool) (p : V) (l : List V) (i : Nat)
    (m : V → Bool) (h : ∀ x ∈ l, ∃ q, prepare x = .ok q ∧ doMatch q p = .ok (m x)) :
    AttrType.indexLoop prepare doMatch p i l = match l.findIdx? m with
      | some j => .ok (i + j) | none => .error .valueError := by
  induction l generalizing i with
  | nil => simp [AttrType.indexLoop]
  | cons x xs ih =>
    obtain ⟨q, hq, hm⟩ := h x (by simp)
    simp only [AttrType.indexLoop, hq, List.findIdx?_cons, hm]
    cases hd : m x with
    | true => simp
    | false =>
      simp only [Bool.false_eq_true, if_false]
      rw [ih (i+1) (fun x hx => h x (by simp [hx]))]
      cases List.findIdx? m xs <;> simp <;> omega

namespace AttrsDict
variable (lower : Str → Str)
theorem has_iff (d : AttrsDict V) (a : Str) : has lower d a = true ↔ getAttr lower d a ≠ [] := by
  simp only [has, getAttr, CIDict.get]
  cases CIDict.getItem lower d a with
  | error e => simp
  | ok l => cases l <;> simp

theorem has_false_iff (d : AttrsDict V) (a : Str) : has lower d a = false ↔ getAttr lower d a = [] := by
  have := has_iff lower d a
  cases h : has lower d a <;> simp_all
end AttrsDict

/-- `appendTo` for all values of a list -/
theorem foldl_appendTo (u : List V) (acc : PDict Str (Vals V)) (attr : Str)
    (h : attr ∉ PDict.keys acc) :
    u.foldl (fun a v => appendTo a attr v) acc = if u = [] then acc else acc ++ [(attr, .list u)] := by
  have set_new : ∀ (acc : PDict Str (Vals V)) (w : Vals V), attr ∉ PDict.keys acc →
      acc.set attr w = acc ++ [(attr, w)] := by
    intro acc w
    induction acc with
    | nil => intro _; rfl
    | cons hd t ih =>
      obtain ⟨a, x⟩ := hd
      intro hn
      simp only [PDict.keys, List.map_cons, List.mem_cons, not_or] at hn
      simp only [PDict.set, List.cons_append]
      rw [if_neg (fun e => hn.1 e.symm), ih hn.2]
  have get_last : ∀ (acc : PDict Str (Vals V)) (w : Vals V), attr ∉ PDict.keys acc →
      PDict.get? (acc ++ [(attr, w)]) attr = some w := by
    intro acc w
    induction acc with
    | nil => intro _; simp [PDict.get?]
    | cons hd t ih =>
      obtain ⟨a, x⟩ := hd
      intro hn
      simp only [PDict.keys, List.map_cons, List.mem_cons, not_or] at hn
      simp only [List.cons_append, PDict.get?]
      rw [if_neg (fun e => hn.1 e.symm), ih hn.2]
  have set_last : ∀ (acc : PDict Str (Vals V)) (w w' : Vals V), attr ∉ PDict.keys acc →
      PDict.set (acc ++ [(attr, w)]) attr w' = acc ++ [(attr, w')] := by
    intro acc w w'
    induction acc with
    | nil => intro _; simp [PDict.set]
    | cons hd t ih =>
      obtain ⟨a, x⟩ := hd
      intro hn
      simp only [PDict.keys, List.map_cons, List.mem_cons, not_or] at hn
      simp only [List.cons_append, PDict.set]
      rw [if_neg (fun e => hn.1 e.symm), ih hn.2]
  have step2 : ∀ (u : List V) (pre : List V),
      u.foldl (fun a v => appendTo a attr v) (acc ++ [(attr, .list pre)]) = acc ++ [(attr, .list (pre ++ u))] := by
    intro u
    induction u with
    | nil => intro pre; simp
    | cons v vs ih =>
      intro pre
      have e : appendTo (acc ++ [(attr, .list pre)]) attr v = acc ++ [(attr, .list (pre ++ [v]))] := by
        simp only [appendTo, get_last acc _ h, set_last acc _ _ h]
      rw [List.foldl_cons, e, ih]; simp
  cases u with
  | nil => simp
  | cons v vs =>
    have h0 : PDict.get? acc attr = none := (PDict.get?_none_iff _ _).2 h
    have e : appendTo acc attr v = acc ++ [(attr, .list [v])] := by
      simp only [appendTo, h0, set_new acc _ h, get_last acc _ h, set_last acc _ _ h, List.nil_append]
    rw [List.foldl_cons, e, step2]; simp

theorem mem_keys_append (acc : PDict Str (Vals V)) (a b : Str) (w : Vals V) :
    b ∈ PDict.keys (acc ++ [(a, w)]) ↔ b ∈ PDict.keys acc ∨ b = a := by
  simp [PDict.keys]

theorem set_new (acc : PDict Str (Vals V)) (attr : Str) (w : Vals V) (h : attr ∉ PDict.keys acc) :
      acc.set attr w = acc ++ [(attr, w)] := by
    induction acc with
    | nil => rfl
    | cons hd t ih =>
      obtain ⟨a, x⟩ := hd
      simp only [PDict.keys, List.map_cons, List.mem_cons, not_or] at h
      simp only [PDict.set, List.cons_append]
      rw [if_neg (fun e => h.1 e.symm), ih h.2]

theorem addLoop_eq (t : AttrType V) (cur : List V) (attr : Str) (known : V → Bool) (vs : List V)
    (acc : PDict Str (Vals V))
    (h : ∀ v ∈ vs, (known v = true → ∃ i, t.index cur v = .ok i) ∧ (known v = false → t.index cur v = .error .valueError)) :
    addLoop t cur attr acc vs = .ok ((vs.filter (fun v => !known v)).foldl (fun a v => appendTo a attr v) acc) := by
  induction vs generalizing acc with
  | nil => rfl
  | cons v vs ih =>
    have hv := h v (by simp)
    have ih' := fun acc => ih acc (fun v hv => h v (by simp [hv]))
    simp only [addLoop]
    cases hk : known v with
    | true =>
      obtain ⟨i, hi⟩ := hv.1 hk
      simp [hi, hk, ih']
    | false => simp [hv.2 hk, hk, ih']

theorem delLoop_eq (t : AttrType V) (cur : List V) (attr : Str) (known : V → Bool) (vs : List V)
    (acc : PDict Str (Vals V))
    (h : ∀ v ∈ vs, (known v = true → ∃ i, t.index cur v = .ok i) ∧ (known v = false → t.index cur v = .error .valueError)) :
    delLoop t cur attr acc vs = .ok ((vs.filter (fun v => known v)).foldl (fun a v => appendTo a attr v) acc) := by
  induction vs generalizing acc with
  | nil => rfl
  | cons v vs ih =>
    have hv := h v (by simp)
    have ih' := fun acc => ih acc (fun v hv => h v (by simp [hv]))
    simp only [delLoop]
    cases hk : known v with
    | true =>
      obtain ⟨i, hi⟩ := hv.1 hk
      simp [hi, hk, ih']
    | false => simp [hv.2 hk, hk, ih']

open Spec in
/-- what `Decides` gives about one attribute -/
theorem decides_index {typeOf : TypeOf V} {m : Str → V → V → Bool} {G : Str → V → Prop}
    (hD : Decides typeOf m G) (lower : Str → Str) (cur : AttrsDict V) (hg : GoodAttrs lower G cur)
    (attr : Str) (t : AttrType V) (ht : typeOf attr = .ok t) (v : V) (hv : G attr v) :
    (knows lower m cur attr v = true → ∃ i, t.index (AttrsDict.getAttr lower cur attr) v = .ok i) ∧
    (knows lower m cur attr v = false →
      t.index (AttrsDict.getAttr lower cur attr) v = .error .valueError) := by
  have h := hD attr (AttrsDict.getAttr lower cur attr) v (hg attr) hv
  simp only [AttrValueList.index, ht] at h
  constructor
  · intro hk
    have : (List.findIdx? (fun x => m attr x v) (AttrsDict.getAttr lower cur attr)).isSome := by
      rw [List.findIdx?_isSome]; exact hk
    obtain ⟨i, hi⟩ := Option.isSome_iff_exists.1 this
    exact ⟨i, by rw [h, hi]⟩
  · intro hk
    have : List.findIdx? (fun x => m attr x v) (AttrsDict.getAttr lower cur attr) = none := by
      rw [List.findIdx?_eq_none_iff]
      intro x hx
      simp only [knows, List.any_eq_false] at hk
      simpa using hk x hx
    rw [h, this]

end Laurelin
