import Verif.Lemmas.Modify
/-! Properties C03 (attribute dictionaries), C04 (value lists), C05-C07 (modlists). -/
set_option linter.unusedSectionVars false
namespace Laurelin.Props
open Laurelin Laurelin.Spec
variable {V : Type} [DecidableEq V] (lower : Str → Str)

/-! ### C03 -/

/-- **C03.** Membership means "has at least one value", whatever casing is used, and after any history
`iterattrs` yields, for each name the dictionary iterates, exactly its stored values in order. -/
theorem c03_membership (ops : List (DictOp Str (List V))) :
    let d := (CIDict.run lower CIDict.empty ops).1
    (∀ a, AttrsDict.has lower d a = true ↔ AttrsDict.getAttr lower d a ≠ []) ∧
    (∀ a b, lower a = lower b → AttrsDict.has lower d a = AttrsDict.has lower d b ∧
      AttrsDict.getAttr lower d a = AttrsDict.getAttr lower d b) ∧
    (∀ a l, (a, l) ∈ d.items →
      ((AttrsDict.iterattrs d).filter (fun p => decide (p.1 = a))).map Prod.snd = l) ∧
    (∀ a v, (a, v) ∈ AttrsDict.iterattrs d ↔ ∃ l, (a, l) ∈ d.items ∧ v ∈ l) := by
  have hinv := (CIDict.run_ok lower ops CIDict.empty (CIDict.inv_empty lower)).1
  refine ⟨fun a => AttrsDict.has_iff lower _ a, ?_, ?_, ?_⟩
  · intro a b h
    simp only [AttrsDict.has, AttrsDict.getAttr, CIDict.get, CIDict.getItem, h]
    exact ⟨trivial, trivial⟩
  · intro a l hm
    have hn := hinv.nd
    simp only [AttrsDict.iterattrs, CIDict.items] at *
    generalize (CIDict.run lower CIDict.empty ops).1.data = data at *
    clear hinv
    have none_of : ∀ (t : PDict Str (List V)), a ∉ PDict.keys t →
        (t.flatMap (fun kv => kv.2.map (fun v => (kv.1, v)))).filter (fun p => decide (p.1 = a)) = [] := by
      intro t ht
      rw [List.filter_eq_nil_iff]
      rintro ⟨x, y⟩ hxy
      simp only [List.mem_flatMap, List.mem_map] at hxy
      obtain ⟨kv, hkv, v, hv, he⟩ := hxy
      simp only [Prod.mk.injEq] at he
      simp only [decide_eq_true_eq]
      rintro rfl
      exact ht (List.mem_map.2 ⟨kv, hkv, he.1⟩)
    induction data with
    | nil => simp at hm
    | cons kv t ih =>
      simp only [PDict.keys, List.map_cons, List.nodup_cons] at hn
      simp only [List.flatMap_cons, List.filter_append, List.map_append]
      rcases List.mem_cons.1 hm with h | h
      · subst h
        rw [none_of t hn.1]
        rw [List.filter_eq_self.2]
        · simp [List.map_map, Function.comp_def]
        · simp
      · have hne : kv.1 ≠ a := by
          intro e; exact hn.1 (List.mem_map.2 ⟨(a, l), h, e.symm⟩)
        rw [ih h hn.2]
        rw [List.filter_eq_nil_iff.2]
        · simp
        · intro p hp
          simp only [List.mem_map] at hp
          obtain ⟨v, _, rfl⟩ := hp
          simpa using hne
  · intro a v
    simp only [AttrsDict.iterattrs, List.mem_flatMap, List.mem_map, Prod.mk.injEq]
    constructor
    · rintro ⟨⟨k, l⟩, h1, w, h2, rfl, rfl⟩; exact ⟨l, h1, h2⟩
    · rintro ⟨l, h1, h2⟩; exact ⟨(a, l), h1, v, h2, rfl, rfl⟩

/-- Non-vacuity: a two-attribute dictionary, one attribute without values. -/
example : let d := (CIDict.run (List.map Char.toLower) CIDict.empty
      [.set (str "cn") [1, 2], .set (str "sn") [], .set (str "uid") [(3 : Nat)]]).1
    AttrsDict.has (List.map Char.toLower) d (str "CN") = true ∧ AttrsDict.has (List.map Char.toLower) d (str "SN") = false ∧
    AttrsDict.iterattrs d = [(str "cn", 1), (str "cn", 2), (str "uid", 3)] := by decide

/-! ### C04 -/

/-- The relation an attribute type with syntax check `validate`, preparation `prepare` and comparison `doMatch`
stands for: both values prepare, and the prepared forms compare equal. -/
def preparedMatch (prepare : V → Except Err V) (doMatch : V → V → Except Err Bool) (x v : V) : Bool :=
  match prepare x, prepare v with
  | .ok p, .ok q => (match doMatch p q with | .ok b => b | .error _ => false)
  | _, _ => false

/-- **C04 (schema-defined types).** If every name resolves to a defined type, the search decides
`preparedMatch` on values that are valid and preparable, if comparing such values raises nothing. -/
theorem c04_defined_decides (validate : Str → V → Except Err Unit) (prepare : Str → V → Except Err V)
    (doMatch : Str → V → V → Except Err Bool)
    (hm : ∀ a x v p q, validate a x = .ok () → validate a v = .ok () → prepare a x = .ok p → prepare a v = .ok q → ∃ b, doMatch a p q = .ok b) :
    Decides (fun a => .ok (.defined (validate a) (prepare a) (doMatch a)))
      (fun a => preparedMatch (prepare a) (doMatch a))
      (fun a v => validate a v = .ok () ∧ ∃ p, prepare a v = .ok p) := by
  intro attr l v hl hv
  obtain ⟨hval, p, hp⟩ := hv
  simp only [AttrValueList.index, AttrType.index]
  cases l with
  | nil => simp
  | cons x xs =>
    simp only [List.isEmpty_cons, Bool.false_eq_true, if_false, hval, hp]
    rw [indexLoop_eq (prepare attr) (doMatch attr) p (x :: xs) 0
      (fun x => preparedMatch (prepare attr) (doMatch attr) x v)]
    · cases List.findIdx? (fun x => preparedMatch (prepare attr) (doMatch attr) x v) (x :: xs) <;> simp
    · intro y hy
      obtain ⟨hy1, q, hq⟩ := hl y hy
      obtain ⟨b, hb⟩ := hm attr y v q p hy1 hval hq hp
      exact ⟨q, hq, by simp [preparedMatch, hq, hp, hb]⟩

/-- **C04 (undefined types).** A name with no registered type compares values exactly. -/
theorem c04_default_decides :
    Decides (fun _ => .ok (.default : AttrType V)) (fun _ x v => decide (x = v)) (fun _ _ => True) := by
  intro attr l v _ _
  simp only [AttrValueList.index, AttrType.index, listIndex_eq]
  cases List.findIdx? (fun x => decide (x = v)) l <;> simp

/-- **C04.** Under any schema that decides `m`: `in`, `count` and `index` agree with "some stored value
matches"; `index` is the first match; `remove` deletes exactly that value and keeps all others in order, and
fails with `ValueError` (the list being unchanged) when nothing matches. -/
theorem c04_value_list (typeOf : TypeOf V) (m : Str → V → V → Bool) (G : Str → V → Prop)
    (hD : Decides typeOf m G) (attr : Str) (l : List V) (v : V) (hl : ∀ x ∈ l, G attr x) (hv : G attr v) :
    (AttrValueList.contains typeOf attr l v = .ok (l.any (fun x => m attr x v))) ∧
    (AttrValueList.count typeOf attr l v = .ok (if l.any (fun x => m attr x v) then 1 else 0)) ∧
    ((∃ x ∈ l, m attr x v = true) → ∃ pre x post, l = pre ++ x :: post ∧ m attr x v = true ∧
        (∀ y ∈ pre, m attr y v = false) ∧
        AttrValueList.index typeOf attr l v = .ok pre.length ∧
        AttrValueList.remove typeOf attr l v = .ok (pre ++ post)) ∧
    ((∀ x ∈ l, m attr x v = false) →
        AttrValueList.index typeOf attr l v = .error .valueError ∧
        AttrValueList.remove typeOf attr l v = .error .valueError) := by
  have h := hD attr l v hl hv
  refine ⟨?_, ?_, ?_, ?_⟩
  · simp only [AttrValueList.contains, h]
    cases hf : List.findIdx? (fun x => m attr x v) l with
    | none =>
      have : l.any (fun x => m attr x v) = false := by
        rw [List.findIdx?_eq_none_iff] at hf; simpa using hf
      simp [this]
    | some i =>
      have : l.any (fun x => m attr x v) = true := by rw [← List.findIdx?_isSome, hf]; rfl
      simp [this]
  · simp only [AttrValueList.count, h]
    cases hf : List.findIdx? (fun x => m attr x v) l with
    | none =>
      have : l.any (fun x => m attr x v) = false := by
        rw [List.findIdx?_eq_none_iff] at hf; simpa using hf
      simp [this]
    | some i =>
      have : l.any (fun x => m attr x v) = true := by rw [← List.findIdx?_isSome, hf]; rfl
      simp [this]
  · rintro ⟨x, hx, hm⟩
    cases hf : List.findIdx? (fun x => m attr x v) l with
    | none =>
      rw [List.findIdx?_eq_none_iff] at hf; simp [hf x hx] at hm
    | some i =>
      rw [List.findIdx?_eq_some_iff_getElem] at hf
      obtain ⟨hi, h1, h2⟩ := hf
      have hsplit : l = l.take i ++ l[i] :: l.drop (i+1) := by simp
      have hidx : AttrValueList.index typeOf attr l v = .ok i := by
        rw [h]
        have : List.findIdx? (fun x => m attr x v) l = some i := by
          rw [List.findIdx?_eq_some_iff_getElem]; exact ⟨hi, h1, h2⟩
        rw [this]
      have hlen : (l.take i).length = i := by simp; omega
      refine ⟨l.take i, l[i], l.drop (i+1), hsplit, h1, ?_, ?_, ?_⟩
      · intro y hy
        obtain ⟨j, hj, rfl⟩ := List.mem_iff_getElem.1 hy
        have hj' : j < i := by simpa [hlen] using hj
        have := h2 j hj'
        simpa using this
      · rw [hlen, hidx]
      · simp only [AttrValueList.remove, hidx]
        rw [List.eraseIdx_eq_take_drop_succ]
  · intro hno
    have hf : List.findIdx? (fun x => m attr x v) l = none := by
      rw [List.findIdx?_eq_none_iff]; simpa using hno
    rw [hf] at h
    simp only [AttrValueList.remove, h, and_self]

/-- Error cases the code distinguishes: an empty list is "not found" even for an invalid value; an invalid
assertion value on a non-empty list raises the syntax error, not `ValueError`. -/
theorem c04_errors (validate : V → Except Err Unit) (prepare : V → Except Err V) (doMatch : V → V → Except Err Bool)
    (l : List V) (v : V) (e : Err) :
    (AttrType.index (.defined validate prepare doMatch) [] v = .error .valueError) ∧
    (l ≠ [] → validate v = .error e → AttrType.index (.defined validate prepare doMatch) l v = .error e) := by
  refine ⟨rfl, fun hl hv => ?_⟩
  cases l with
  | nil => exact absurd rfl hl
  | cons x xs => simp [AttrType.index, hv]

/-- **C04 (errors are not absence).** Only "not found" (`ValueError`) reads as absent: any other error of the
search - an unknown attribute type, an invalid or unpreparable value - is raised by `in`, `count` and `remove`
alike, never answered with `False` or 0. -/
theorem c04_errors_raise (typeOf : TypeOf V) (attr : Str) (l : List V) (v : V) (e : Err) (he : e ≠ .valueError) :
    (typeOf attr = .error e →
      AttrValueList.index typeOf attr l v = .error e ∧ AttrValueList.contains typeOf attr l v = .error e ∧
      AttrValueList.count typeOf attr l v = .error e ∧ AttrValueList.remove typeOf attr l v = .error e) ∧
    (∀ validate prepare doMatch, typeOf attr = .ok (.defined validate prepare doMatch) → l ≠ [] →
      (validate v = .error e ∨ (validate v = .ok () ∧ prepare v = .error e)) →
      AttrValueList.index typeOf attr l v = .error e ∧ AttrValueList.contains typeOf attr l v = .error e ∧
      AttrValueList.count typeOf attr l v = .error e ∧ AttrValueList.remove typeOf attr l v = .error e) := by
  have key : AttrValueList.index typeOf attr l v = .error e →
      AttrValueList.index typeOf attr l v = .error e ∧ AttrValueList.contains typeOf attr l v = .error e ∧
      AttrValueList.count typeOf attr l v = .error e ∧ AttrValueList.remove typeOf attr l v = .error e := by
    intro h
    refine ⟨h, ?_, ?_, ?_⟩
    · rw [AttrValueList.contains, h]; cases e <;> first | rfl | exact absurd rfl he
    · rw [AttrValueList.count, h]; cases e <;> first | rfl | exact absurd rfl he
    · rw [AttrValueList.remove, h]
  refine ⟨fun h => key ?_, fun validate prepare doMatch h hl hv => key ?_⟩
  · rw [AttrValueList.index, h]
  · rw [AttrValueList.index, h]
    cases l with
    | nil => exact absurd rfl hl
    | cons x xs => rcases hv with hv | ⟨hv, hp⟩ <;> simp [AttrType.index, *]

example : AttrValueList.contains (fun _ => .ok (.defined (fun v => if v = [] then .error .invalidSyntax else .ok ())
      (fun v => .ok (v.map Char.toLower)) (fun a b => .ok (a == b)))) (str "cn") [str "Foo"] [] = .error .invalidSyntax ∧
    AttrValueList.contains (fun _ => .ok (.defined (fun v => if v = [] then .error .invalidSyntax else .ok ())
      (fun v => .ok (v.map Char.toLower)) (fun a b => .ok (a == b)))) (str "cn") [str "Foo"] (str "x") = .ok false := by decide

/-- Non-vacuity: a case-insensitive attribute type. -/
example : AttrValueList.remove (fun _ => .ok (.defined (fun v => if v = [] then .error .invalidSyntax else .ok ())
      (fun v => .ok (v.map Char.toLower)) (fun a b => .ok (a == b))))
    (str "cn") [str "Foo", str "BAR", str "baz"] (str "bar") = .ok [str "Foo", str "baz"] := by decide

/-! ### C05 -/

/-- What is asked of an add: per attribute, in order, the requested values that match nothing known; attributes
with nothing left to add are omitted. -/
def addWanted (m : Str → V → V → Bool) (cur : AttrsDict V) (new : List (Str × List V)) : List (Mod V) :=
  new.filterMap (fun kv =>
    let u := kv.2.filter (fun v => !knows lower m cur kv.1 v)
    if u = [] then none else some ⟨.add, kv.1, .list u⟩)

/-- **C05.** `AddModlist(cur, new)` is exactly `addWanted` (a dictionary has distinct keys; every name
resolves to an attribute type; values acceptable), or `ValueError` exactly when some attribute that is
absent from `cur` is requested with an empty list. -/
theorem c05_add_modlist (typeOf : TypeOf V) (m : Str → V → V → Bool) (G : Str → V → Prop)
    (hD : Decides typeOf m G) (cur : AttrsDict V) (hg : GoodAttrs lower G cur) (new : List (Str × List V))
    (hn : (new.map Prod.fst).Nodup) (ht : ∀ a ∈ new.map Prod.fst, ∃ t, typeOf a = .ok t)
    (hv : ∀ kv ∈ new, ∀ v ∈ kv.2, G kv.1 v) :
    ((∀ kv ∈ new, kv.2 = [] → AttrsDict.getAttr lower cur kv.1 ≠ []) →
      addModlist lower typeOf cur (new.map (fun kv => (kv.1, .list kv.2))) = .ok (addWanted lower m cur new)) ∧
    ((∃ kv ∈ new, kv.2 = [] ∧ AttrsDict.getAttr lower cur kv.1 = []) →
      addModlist lower typeOf cur (new.map (fun kv => (kv.1, .list kv.2))) = .error .valueError) := by
  have h := addOuter_eq hD lower cur hg new [] hn (by simp [PDict.keys]) ht hv
  simp only [List.nil_append] at h
  simp only [addModlist, h]
  constructor
  · intro hne
    rw [modlist_ok]
    · congr 1
      simp only [addWanted, List.map_filterMap]
      apply filterMap_congr'
      intro kv hkv
      by_cases hu : kv.2.filter (fun v => !knows lower m cur kv.1 v) = []
      · have : AttrsDict.getAttr lower cur kv.1 ≠ [] := by
          intro he
          have hall : kv.2.filter (fun v => !knows lower m cur kv.1 v) = kv.2 := by
            rw [List.filter_eq_self]; intro v _; simp [knows, he]
          rw [hall] at hu
          exact hne kv hkv hu he
        simp only [hu, this, ne_eq, not_false_eq_true, and_self, if_true, Option.map_none]
      · simp only [hu, false_and, if_false, Option.map_some]
    · intro _ kv hkv
      simp only [List.mem_filterMap] at hkv
      obtain ⟨kv', hkv', he⟩ := hkv
      split at he
      · simp at he
      · rename_i hnot
        simp only [Option.some.injEq] at he
        subst he
        simp only [Vals.len]
        intro hlen
        have hu := List.length_eq_zero_iff.1 hlen
        have hc : AttrsDict.getAttr lower cur kv'.1 = [] := by
          apply Classical.byContradiction
          intro hx; exact hnot ⟨hu, hx⟩
        have hall : kv'.2.filter (fun v => !knows lower m cur kv'.1 v) = kv'.2 := by
          rw [List.filter_eq_self]; intro v _; simp [knows, hc]
        rw [hall] at hu
        exact hne kv' hkv' hu hc
  · rintro ⟨kv, hkv, he, hc⟩
    apply modlist_bad
    refine ⟨(kv.1, .list []), ?_, rfl⟩
    simp only [List.mem_filterMap]
    refine ⟨kv, hkv, ?_⟩
    simp [he, hc]

/-- **C05, consequences.** No value sent matches a known one, and (for a reflexive equality) after adding the sent
values to the known ones every requested value is present. -/
theorem c05_effect (m : Str → V → V → Bool) (hrefl : ∀ a v, m a v v = true) (cur : AttrsDict V)
    (new : List (Str × List V)) :
    (∀ md ∈ addWanted lower m cur new, md.op = .add ∧ ∃ u, md.vals = .list u ∧ u ≠ [] ∧
        ∀ v ∈ u, ∀ x ∈ AttrsDict.getAttr lower cur md.attr, m md.attr x v = false) ∧
    (∀ kv ∈ new, ∀ v ∈ kv.2,
        (∃ x ∈ AttrsDict.getAttr lower cur kv.1, m kv.1 x v = true) ∨
        ∃ md ∈ addWanted lower m cur new, md.attr = kv.1 ∧ ∃ u, md.vals = .list u ∧ ∃ x ∈ u, m kv.1 x v = true) := by
  constructor
  · intro md hmd
    simp only [addWanted, List.mem_filterMap] at hmd
    obtain ⟨kv, _, he⟩ := hmd
    split at he
    · simp at he
    · rename_i hu
      simp only [Option.some.injEq] at he
      subst he
      refine ⟨rfl, _, rfl, hu, ?_⟩
      intro v hv x hx
      simp only [List.mem_filter, knows, Bool.not_eq_true', List.any_eq_false] at hv
      simpa using hv.2 x hx
  · intro kv hkv v hv
    cases hk : knows lower m cur kv.1 v with
    | true =>
      left
      simp only [knows, List.any_eq_true] at hk
      exact hk
    | false =>
      right
      have hmem : v ∈ kv.2.filter (fun v => !knows lower m cur kv.1 v) := by
        simp only [List.mem_filter, hk, Bool.not_false, and_true]; exact hv
      refine ⟨⟨.add, kv.1, .list (kv.2.filter (fun v => !knows lower m cur kv.1 v))⟩, ?_, rfl, _, rfl, v, hmem, hrefl _ _⟩
      simp only [addWanted, List.mem_filterMap]
      refine ⟨kv, hkv, ?_⟩
      rw [if_neg]
      intro e; rw [e] at hmem; simp at hmem

theorem addLoop_error (t : AttrType V) (c : List V) (attr : Str) (v : V) (e : Err) (he : e ≠ .valueError)
    (hv : t.index c v = .error e) : ∀ (vs : List V) (acc : PDict Str (Vals V)), v ∈ vs →
      ∃ e' u, e' ≠ .valueError ∧ u ∈ vs ∧ t.index c u = .error e' ∧ addLoop t c attr acc vs = .error e' := by
  intro vs
  induction vs with
  | nil => simp
  | cons x xs ih =>
    intro acc hm
    have step : (∃ e', e' ≠ Err.valueError ∧ t.index c x = .error e') ∨ v ∈ xs := by
      rcases List.mem_cons.1 hm with rfl | h
      · exact .inl ⟨e, he, hv⟩
      · exact .inr h
    cases hx : t.index c x with
    | ok i =>
      rcases step with ⟨e', _, h⟩ | h
      · rw [hx] at h; cases h
      · obtain ⟨e', u, h1, h2, h3, h4⟩ := ih acc h
        exact ⟨e', u, h1, by simp [h2], h3, by simp only [addLoop, hx]; exact h4⟩
    | error ex =>
      by_cases hval : ex = .valueError
      · subst hval
        rcases step with ⟨e', h1, h⟩ | h
        · rw [hx] at h; cases h; exact absurd rfl h1
        · obtain ⟨e', u, h1, h2, h3, h4⟩ := ih (appendTo acc attr x) h
          exact ⟨e', u, h1, by simp [h2], h3, by simp only [addLoop, hx]; exact h4⟩
      · refine ⟨ex, x, hval, by simp, hx, ?_⟩
        simp only [addLoop, hx]

theorem delLoop_error (t : AttrType V) (c : List V) (attr : Str) (v : V) (e : Err) (he : e ≠ .valueError)
    (hv : t.index c v = .error e) : ∀ (vs : List V) (acc : PDict Str (Vals V)), v ∈ vs →
      ∃ e' u, e' ≠ .valueError ∧ u ∈ vs ∧ t.index c u = .error e' ∧ delLoop t c attr acc vs = .error e' := by
  intro vs
  induction vs with
  | nil => simp
  | cons x xs ih =>
    intro acc hm
    have step : (∃ e', e' ≠ Err.valueError ∧ t.index c x = .error e') ∨ v ∈ xs := by
      rcases List.mem_cons.1 hm with rfl | h
      · exact .inl ⟨e, he, hv⟩
      · exact .inr h
    cases hx : t.index c x with
    | ok i =>
      rcases step with ⟨e', _, h⟩ | h
      · rw [hx] at h; cases h
      · obtain ⟨e', u, h1, h2, h3, h4⟩ := ih (appendTo acc attr x) h
        exact ⟨e', u, h1, by simp [h2], h3, by simp only [delLoop, hx]; exact h4⟩
    | error ex =>
      by_cases hval : ex = .valueError
      · subst hval
        rcases step with ⟨e', h1, h⟩ | h
        · rw [hx] at h; cases h; exact absurd rfl h1
        · obtain ⟨e', u, h1, h2, h3, h4⟩ := ih acc h
          exact ⟨e', u, h1, by simp [h2], h3, by simp only [delLoop, hx]; exact h4⟩
      · refine ⟨ex, x, hval, by simp, hx, ?_⟩
        simp only [delLoop, hx]

/-- **C05/C06 (errors).** A requested value for a present attribute whose comparison raises anything but "not found"
(`ValueError`) makes the whole construction raise: no modlist is returned that silently adds or skips the value. -/
theorem c05_c06_errors_raise (typeOf : TypeOf V) (cur : AttrsDict V) (attr : Str) (l : List V) (v : V) (e : Err)
    (he : e ≠ .valueError) (hp : AttrsDict.getAttr lower cur attr ≠ []) (hv : v ∈ l)
    (hi : AttrValueList.index typeOf attr (AttrsDict.getAttr lower cur attr) v = .error e)
    (req : List (Str × Vals V)) (hm : (attr, .list l) ∈ req) :
    (∃ e', addModlist lower typeOf cur req = .error e') ∧
    (∃ e', deleteModlist lower typeOf cur req = .error e') ∧
    (req = [(attr, .list [v])] →
      addModlist lower typeOf cur req = .error e ∧ deleteModlist lower typeOf cur req = .error e) := by
  have hhas := (AttrsDict.has_iff lower cur attr).2 hp
  have htr : (Vals.list l).truthy = true := by cases l <;> simp_all [Vals.truthy]
  have hA : ∀ (r : List (Str × Vals V)) acc, (attr, Vals.list l) ∈ r →
      ∃ e', addOuter lower typeOf cur acc r = .error e' := by
    intro r
    induction r with
    | nil => simp
    | cons kv r ih =>
      intro acc hm
      obtain ⟨a, vs⟩ := kv
      rcases List.mem_cons.1 hm with h | h
      · cases h
        simp only [addOuter, hhas, if_true]
        rw [AttrValueList.index] at hi
        cases ht : typeOf attr with
        | error e0 => exact ⟨e0, rfl⟩
        | ok t =>
          rw [ht] at hi
          obtain ⟨e', _, _, _, _, h⟩ := addLoop_error t _ attr v e he hi l acc hv
          simp only [Vals.iter, h]
          exact ⟨e', rfl⟩
      · rw [addOuter]
        split
        · cases typeOf a with
          | error e0 => exact ⟨e0, rfl⟩
          | ok t =>
            cases hvi : vs.iter with
            | error e0 => exact ⟨e0, by simp only [hvi]⟩
            | ok w =>
              simp only [hvi]
              cases addLoop t (AttrsDict.getAttr lower cur a) a acc w with
              | error e0 => exact ⟨e0, rfl⟩
              | ok acc' => exact ih acc' h
        · exact ih _ h
  have hD : ∀ (r : List (Str × Vals V)) acc, (attr, Vals.list l) ∈ r →
      ∃ e', delOuter lower typeOf cur acc r = .error e' := by
    intro r
    induction r with
    | nil => simp
    | cons kv r ih =>
      intro acc hm
      obtain ⟨a, vs⟩ := kv
      rcases List.mem_cons.1 hm with h | h
      · cases h
        simp only [delOuter, hhas, htr, if_true]
        rw [AttrValueList.index] at hi
        cases ht : typeOf attr with
        | error e0 => exact ⟨e0, rfl⟩
        | ok t =>
          rw [ht] at hi
          obtain ⟨e', _, _, _, _, h⟩ := delLoop_error t _ attr v e he hi l acc hv
          simp only [Vals.iter, h]
          exact ⟨e', rfl⟩
      · rw [delOuter]
        split
        · split
          · cases typeOf a with
            | error e0 => exact ⟨e0, rfl⟩
            | ok t =>
              cases hvi : vs.iter with
              | error e0 => exact ⟨e0, by simp only [hvi]⟩
              | ok w =>
                simp only [hvi]
                cases delLoop t (AttrsDict.getAttr lower cur a) a acc w with
                | error e0 => exact ⟨e0, rfl⟩
                | ok acc' => exact ih acc' h
          · exact ih _ h
        · exact ih _ h
  refine ⟨?_, ?_, ?_⟩
  · obtain ⟨e', h⟩ := hA req [] hm
    exact ⟨e', by simp only [addModlist, h]⟩
  · obtain ⟨e', h⟩ := hD req [] hm
    exact ⟨e', by simp only [deleteModlist, h]⟩
  · rintro rfl
    rw [AttrValueList.index] at hi
    cases ht : typeOf attr with
    | error e0 =>
      rw [ht] at hi; cases hi
      simp [addModlist, deleteModlist, addOuter, delOuter, hhas, ht, Vals.truthy]
    | ok t =>
      rw [ht] at hi
      obtain ⟨e1, u1, _, hu1, hx1, h1⟩ := addLoop_error t (AttrsDict.getAttr lower cur attr) attr v e he hi [v] [] (by simp)
      obtain ⟨e2, u2, _, hu2, hx2, h2⟩ := delLoop_error t (AttrsDict.getAttr lower cur attr) attr v e he hi [v] [] (by simp)
      simp only [List.mem_singleton] at hu1 hu2
      subst hu1; subst hu2
      simp only at hi
      rw [hi] at hx1 hx2
      cases hx1; cases hx2
      simp [addModlist, deleteModlist, addOuter, delOuter, hhas, ht, Vals.truthy, Vals.iter, h1, h2]

/-- Non-vacuity: adding an invalid value to a present attribute raises the syntax error. -/
example : addModlist (List.map Char.toLower) (fun _ => .ok (.defined
      (fun v => if v = [] then .error .invalidSyntax else .ok ()) (fun v => .ok (v.map Char.toLower)) (fun a b => .ok (a == b))))
    (CIDict.run (List.map Char.toLower) CIDict.empty [.set (str "CN") [str "a"]]).1
    [(str "cn", .list [str "b", []])] = .error .invalidSyntax := by decide

/-- Non-vacuity: an exact-match schema, one attribute partly known, one wholly known, one new. -/
example : addModlist (List.map Char.toLower) (fun _ => .ok .default)
    (CIDict.run (List.map Char.toLower) CIDict.empty [.set (str "CN") [1, 2], .set (str "sn") [7]]).1
    [(str "cn", .list [2, 3]), (str "SN", .list [7]), (str "uid", .list [(9 : Nat)])]
    = .ok [⟨.add, str "cn", .list [3]⟩, ⟨.add, str "uid", .list [9]⟩] := by decide

/-! ### C06 -/

/-- What is asked of a delete: only attributes that are present; a delete-all stays a delete-all; otherwise the
requested values that match a known value, in order. -/
def delWanted (m : Str → V → V → Bool) (cur : AttrsDict V) (del : List (Str × Vals V)) : List (Mod V) :=
  del.filterMap (fun kv =>
    if AttrsDict.getAttr lower cur kv.1 = [] then none else
    match kv.2 with
    | .deleteAll => some ⟨.delete, kv.1, .deleteAll⟩
    | .list [] => some ⟨.delete, kv.1, .list []⟩
    | .list l =>
      let u := l.filter (fun v => knows lower m cur kv.1 v)
      if u = [] then none else some ⟨.delete, kv.1, .list u⟩)

/-- **C06.** `DeleteModlist(cur, del)` is exactly `delWanted`; it never raises for acceptable values. -/
theorem c06_delete_modlist (typeOf : TypeOf V) (m : Str → V → V → Bool) (G : Str → V → Prop)
    (hD : Decides typeOf m G) (cur : AttrsDict V) (hg : GoodAttrs lower G cur) (del : List (Str × Vals V))
    (hn : (del.map Prod.fst).Nodup) (ht : ∀ a ∈ del.map Prod.fst, ∃ t, typeOf a = .ok t)
    (hv : ∀ kv ∈ del, ∀ l, kv.2 = .list l → ∀ v ∈ l, G kv.1 v) :
    deleteModlist lower typeOf cur del = .ok (delWanted lower m cur del) := by
  have h := delOuter_eq hD lower cur hg del [] hn (by simp [PDict.keys]) ht hv
  simp only [List.nil_append] at h
  simp only [deleteModlist, h]
  rw [modlist_ok _ _ (by simp)]
  congr 1
  simp only [delWanted, List.map_filterMap]
  apply filterMap_congr'
  intro kv _
  obtain ⟨a, vs⟩ := kv
  by_cases he : AttrsDict.getAttr lower cur a = []
  · simp [he]
  · simp only [he, if_false]
    cases vs with
    | deleteAll => rfl
    | list l =>
      cases l with
      | nil => rfl
      | cons x xs =>
        simp only
        split <;> simp

/-- **C06, consequences.** Every deleted value matches a known one of an attribute that is present, and every
requested value that matches a known one is deleted. -/
theorem c06_effect (m : Str → V → V → Bool) (cur : AttrsDict V) (del : List (Str × Vals V)) :
    (∀ md ∈ delWanted lower m cur del, md.op = .delete ∧ AttrsDict.has lower cur md.attr = true ∧
        ∀ l, md.vals = .list l → ∀ v ∈ l, ∃ x ∈ AttrsDict.getAttr lower cur md.attr, m md.attr x v = true) ∧
    (∀ kv ∈ del, ∀ l, kv.2 = .list l → ∀ v ∈ l, (∃ x ∈ AttrsDict.getAttr lower cur kv.1, m kv.1 x v = true) →
        ∃ md ∈ delWanted lower m cur del, md.attr = kv.1 ∧ ∃ u, md.vals = .list u ∧ v ∈ u) ∧
    (∀ kv ∈ del, kv.2.truthy = false → AttrsDict.has lower cur kv.1 = true →
        ∃ md ∈ delWanted lower m cur del, md.attr = kv.1 ∧ md.vals = kv.2) := by
  refine ⟨?_, ?_, ?_⟩
  · intro md hmd
    simp only [delWanted, List.mem_filterMap] at hmd
    obtain ⟨⟨a, vs⟩, _, he⟩ := hmd
    simp only at he
    split at he
    · simp at he
    · rename_i hne
      have hh := (AttrsDict.has_iff lower cur a).2 hne
      cases vs with
      | deleteAll => simp only [Option.some.injEq] at he; subst he; exact ⟨rfl, hh, by simp⟩
      | list l =>
        cases l with
        | nil =>
          simp only [Option.some.injEq] at he; subst he
          refine ⟨rfl, hh, ?_⟩
          intro l hl v hv; simp only [Vals.list.injEq] at hl; subst hl; simp at hv
        | cons x xs =>
          simp only at he
          split at he
          · simp at he
          · simp only [Option.some.injEq] at he; subst he
            refine ⟨rfl, hh, ?_⟩
            intro l hl v hv; simp only [Vals.list.injEq] at hl; subst hl
            have := (List.mem_filter.1 hv).2
            simpa [knows] using this
  · intro kv hkv l hl v hv hx
    obtain ⟨a, vs⟩ := kv
    simp only at hl; subst hl
    have hk : knows lower m cur a v = true := by simpa [knows] using hx
    obtain ⟨y, hy, _⟩ := hx
    have hne : AttrsDict.getAttr lower cur a ≠ [] := by intro e; rw [e] at hy; simp at hy
    have hmem : v ∈ l.filter (fun v => knows lower m cur a v) := List.mem_filter.2 ⟨hv, hk⟩
    have hnil : l.filter (fun v => knows lower m cur a v) ≠ [] := by intro e; rw [e] at hmem; simp at hmem
    refine ⟨⟨.delete, a, .list (l.filter (fun v => knows lower m cur a v))⟩, ?_, rfl, _, rfl, hmem⟩
    simp only [delWanted, List.mem_filterMap]
    refine ⟨_, hkv, ?_⟩
    cases l with
    | nil => simp at hv
    | cons x xs => simp [hne, hnil]
  · intro kv hkv ht hh
    obtain ⟨a, vs⟩ := kv
    have hne := (AttrsDict.has_iff lower cur a).1 hh
    refine ⟨⟨.delete, a, vs⟩, ?_, rfl, rfl⟩
    simp only [delWanted, List.mem_filterMap]
    refine ⟨_, hkv, ?_⟩
    cases vs with
    | deleteAll => simp [hne]
    | list l =>
      cases l with
      | nil => simp [hne]
      | cons x xs => simp [Vals.truthy] at ht

example : deleteModlist (List.map Char.toLower) (fun _ => .ok .default)
    (CIDict.run (List.map Char.toLower) CIDict.empty [.set (str "CN") [1, 2], .set (str "sn") [7], .set (str "x") [5]]).1
    [(str "cn", .list [2, 3]), (str "SN", .list [8]), (str "uid", .deleteAll), (str "X", .list ([] : List Nat))]
    = .ok [⟨.delete, str "cn", .list [2]⟩, ⟨.delete, str "X", .list []⟩] := by decide

/-! ### C07 -/

/-- the value list a `Mod` ends up with -/
def normalise : RawVals V → Vals V
  | .scalar v => .list [v]
  | .vals vs => vs

/-- **C07.** Building mods from a dictionary fails with `ValueError` iff the operation is ADD and some attribute has no
values; otherwise there is one Mod per attribute in order, bare values being wrapped. -/
theorem c07_modlist (op : ModOp) (items : List (Str × RawVals V)) :
    (op = .add ∧ (∃ kv ∈ items, (normalise kv.2).len = 0) → modlist op items = .error .valueError) ∧
    (¬ (op = .add ∧ ∃ kv ∈ items, (normalise kv.2).len = 0) →
      modlist op items = .ok (items.map (fun kv => ⟨op, kv.1, normalise kv.2⟩))) := by
  have mk : ∀ a (r : RawVals V), Mod.mk' op a r =
      if op = .add ∧ (normalise r).len = 0 then .error .valueError else .ok ⟨op, a, normalise r⟩ := by
    intro a r; cases r <;> rfl
  induction items with
  | nil => simp [modlist]
  | cons kv rest ih =>
    simp only [modlist, mk]
    by_cases h : op = .add ∧ (normalise kv.2).len = 0
    · simp only [h, and_self, if_true, true_and]
      refine ⟨fun _ => trivial, ?_⟩
      intro hc
      exact absurd ⟨kv, by simp, h.2⟩ (fun hx => hc hx)
    · simp only [h, if_false]
      constructor
      · rintro ⟨ho, x, hx, hx0⟩
        rcases List.mem_cons.1 hx with rfl | hx
        · exact absurd ⟨ho, hx0⟩ h
        · rw [ih.1 ⟨ho, x, hx, hx0⟩]
      · intro hc
        rw [ih.2 (fun ⟨ho, x, hx, hx0⟩ => hc ⟨ho, x, by simp [hx], hx0⟩)]
        rfl

/-- No ADD Mod without values can exist. -/
theorem c07_no_empty_add (op : ModOp) (attr : Str) (raw : RawVals V) (md : Mod V)
    (h : Mod.mk' op attr raw = .ok md) : md.op = op ∧ md.attr = attr ∧ (md.op = .add → md.vals.len ≠ 0) := by
  have mk : Mod.mk' op attr raw =
      if op = .add ∧ (normalise raw).len = 0 then .error .valueError else .ok ⟨op, attr, normalise raw⟩ := by
    cases raw <;> rfl
  rw [mk] at h
  split at h
  · exact absurd h (by simp)
  · rename_i hn
    simp only [Except.ok.injEq] at h
    subst h
    exact ⟨rfl, rfl, fun ho hl => hn ⟨ho, hl⟩⟩

example : modlist .replace [(str "cn", .scalar 1), (str "sn", .vals (.list [])), (str "x", .vals .deleteAll)]
    = .ok [⟨.replace, str "cn", .list [1]⟩, ⟨.replace, str "sn", .list []⟩, ⟨.replace, str "x", .deleteAll⟩] ∧
    modlist .add [(str "cn", .scalar (1 : Nat)), (str "sn", .vals .deleteAll)] = .error .valueError := by decide

end Laurelin.Props
