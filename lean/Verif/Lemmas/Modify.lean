import Verif.Lemmas.Attrs
set_option linter.unusedSectionVars false
namespace Laurelin
open Spec
variable {V : Type} [DecidableEq V]

theorem addOuter_eq {typeOf : TypeOf V} {m : Str → V → V → Bool} {G : Str → V → Prop}
    (hD : Decides typeOf m G) (lower : Str → Str) (cur : AttrsDict V) (hg : GoodAttrs lower G cur)
    (new : List (Str × List V)) (acc : PDict Str (Vals V))
    (hn : (new.map Prod.fst).Nodup) (hdis : ∀ a ∈ new.map Prod.fst, a ∉ PDict.keys acc)
    (ht : ∀ a ∈ new.map Prod.fst, ∃ t, typeOf a = .ok t)
    (hv : ∀ kv ∈ new, ∀ v ∈ kv.2, G kv.1 v) :
    addOuter lower typeOf cur acc (new.map (fun kv => (kv.1, .list kv.2))) =
      .ok (acc ++ new.filterMap (fun kv =>
        let u := kv.2.filter (fun v => !knows lower m cur kv.1 v)
        if u = [] ∧ AttrsDict.getAttr lower cur kv.1 ≠ [] then none else some (kv.1, .list u))) := by
  induction new generalizing acc with
  | nil => simp [addOuter]
  | cons kv rest ih =>
    obtain ⟨a, vs⟩ := kv
    simp only [List.map_cons, List.nodup_cons] at hn
    have ha : a ∉ PDict.keys acc := hdis a (by simp)
    obtain ⟨t, hta⟩ := ht a (by simp)
    have ih' := fun acc hdis => ih acc hn.2 hdis (fun b hb => ht b (by simp at hb ⊢; right; exact hb))
      (fun kv hkv => hv kv (by simp [hkv]))
    have hdis' : ∀ b ∈ rest.map Prod.fst, b ∉ PDict.keys acc := fun b hb => hdis b (by simp at hb ⊢; right; exact hb)
    have hdis'' : ∀ w : Vals V, ∀ b ∈ rest.map Prod.fst, b ∉ PDict.keys (acc ++ [(a, w)]) := by
      intro w b hb
      rw [mem_keys_append]
      rintro (h | h)
      · exact hdis' b hb h
      · subst h; exact hn.1 hb
    simp only [List.map_cons, addOuter]
    by_cases hh : AttrsDict.has lower cur a = true
    · rw [if_pos hh]
      have hne := (AttrsDict.has_iff lower cur a).1 hh
      simp only [hta, Vals.iter]
      rw [addLoop_eq t _ a (knows lower m cur a) vs acc
        (fun v hvv => decides_index hD lower cur hg a t hta v (hv (a, vs) (by simp) v hvv))]
      simp only
      rw [foldl_appendTo _ _ _ ha]
      by_cases hu : vs.filter (fun v => !knows lower m cur a v) = []
      · rw [if_pos hu, ih' _ hdis']
        rw [List.filterMap_cons]
        simp only [hu, hne, ne_eq, not_false_eq_true, and_self, if_true]
      · rw [if_neg hu, ih' _ (hdis'' _)]
        rw [List.filterMap_cons]
        simp only [hu, false_and, if_false, List.append_assoc, List.cons_append, List.nil_append]
    · rw [if_neg hh]
      have he : AttrsDict.getAttr lower cur a = [] := (AttrsDict.has_false_iff lower cur a).1 (by simpa using hh)
      rw [set_new _ _ _ ha, ih' _ (hdis'' _)]
      have hall : vs.filter (fun v => !knows lower m cur a v) = vs := by
        rw [List.filter_eq_self]; intro v _; simp [knows, he]
      rw [List.filterMap_cons]
      simp only [hall, he, ne_eq, not_true_eq_false, and_false, if_false, List.append_assoc, List.cons_append,
        List.nil_append]

theorem modlist_ok (op : ModOp) (l : List (Str × Vals V)) (h : op = .add → ∀ kv ∈ l, kv.2.len ≠ 0) :
    modlist op (l.map (fun kv => (kv.1, .vals kv.2))) = .ok (l.map (fun kv => ⟨op, kv.1, kv.2⟩)) := by
  induction l with
  | nil => rfl
  | cons kv rest ih =>
    have ih' := ih (fun ho kv hkv => h ho kv (by simp [hkv]))
    simp only [List.map_cons, modlist, Mod.mk', ih']
    by_cases ho : op = .add
    · have := h ho kv (by simp)
      simp [this]
    · simp [ho]

theorem modlist_bad (l : List (Str × Vals V)) (h : ∃ kv ∈ l, kv.2.len = 0) :
    modlist .add (l.map (fun kv => (kv.1, .vals kv.2))) = .error .valueError := by
  induction l with
  | nil => simp at h
  | cons kv rest ih =>
    simp only [List.map_cons, modlist, Mod.mk']
    by_cases h0 : kv.2.len = 0
    · simp [h0]
    · have : ∃ kv ∈ rest, kv.2.len = 0 := by
        obtain ⟨x, hx, hx0⟩ := h
        rcases List.mem_cons.1 hx with rfl | hx
        · exact absurd hx0 h0
        · exact ⟨x, hx, hx0⟩
      simp [h0, ih this]

theorem delOuter_eq {typeOf : TypeOf V} {m : Str → V → V → Bool} {G : Str → V → Prop}
    (hD : Decides typeOf m G) (lower : Str → Str) (cur : AttrsDict V) (hg : GoodAttrs lower G cur)
    (del : List (Str × Vals V)) (acc : PDict Str (Vals V))
    (hn : (del.map Prod.fst).Nodup) (hdis : ∀ a ∈ del.map Prod.fst, a ∉ PDict.keys acc)
    (ht : ∀ a ∈ del.map Prod.fst, ∃ t, typeOf a = .ok t)
    (hv : ∀ kv ∈ del, ∀ l, kv.2 = .list l → ∀ v ∈ l, G kv.1 v) :
    delOuter lower typeOf cur acc del =
      .ok (acc ++ del.filterMap (fun kv =>
        if AttrsDict.getAttr lower cur kv.1 = [] then none else
        match kv.2 with
        | .deleteAll => some kv
        | .list [] => some kv
        | .list l =>
          let u := l.filter (fun v => knows lower m cur kv.1 v)
          if u = [] then none else some (kv.1, .list u))) := by
  induction del generalizing acc with
  | nil => simp [delOuter]
  | cons kv rest ih =>
    obtain ⟨a, vs⟩ := kv
    simp only [List.map_cons, List.nodup_cons] at hn
    have ha : a ∉ PDict.keys acc := hdis a (by simp)
    obtain ⟨t, hta⟩ := ht a (by simp)
    have ih' := fun acc hdis => ih acc hn.2 hdis (fun b hb => ht b (by simp at hb ⊢; right; exact hb))
      (fun kv hkv => hv kv (by simp [hkv]))
    have hdis' : ∀ b ∈ rest.map Prod.fst, b ∉ PDict.keys acc := fun b hb => hdis b (by simp at hb ⊢; right; exact hb)
    have hdis'' : ∀ w : Vals V, ∀ b ∈ rest.map Prod.fst, b ∉ PDict.keys (acc ++ [(a, w)]) := by
      intro w b hb
      rw [mem_keys_append]
      rintro (h | h)
      · exact hdis' b hb h
      · subst h; exact hn.1 hb
    simp only [delOuter]
    by_cases hh : AttrsDict.has lower cur a = true
    · rw [if_pos hh]
      have hne := (AttrsDict.has_iff lower cur a).1 hh
      cases vs with
      | deleteAll =>
        simp only [Vals.truthy, Bool.false_eq_true, if_false]
        rw [set_new _ _ _ ha, ih' _ (hdis'' _), List.filterMap_cons]
        simp [hne]
      | list l =>
        cases l with
        | nil =>
          simp only [Vals.truthy, List.isEmpty_nil, Bool.not_true, Bool.false_eq_true, if_false]
          rw [set_new _ _ _ ha, ih' _ (hdis'' _), List.filterMap_cons]
          simp [hne]
        | cons v0 l0 =>
          simp only [Vals.truthy, List.isEmpty_cons, Bool.not_false, if_true, hta, Vals.iter]
          rw [delLoop_eq t _ a (knows lower m cur a) (v0 :: l0) acc
            (fun v hvv => decides_index hD lower cur hg a t hta v (hv (a, _) (by simp) _ rfl v hvv))]
          simp only
          rw [foldl_appendTo _ _ _ ha]
          by_cases hu : (v0 :: l0).filter (fun v => knows lower m cur a v) = []
          · rw [if_pos hu, ih' _ hdis', List.filterMap_cons]
            simp [hne, hu]
          · rw [if_neg hu, ih' _ (hdis'' _), List.filterMap_cons]
            simp [hne, hu]
    · rw [if_neg hh]
      have he : AttrsDict.getAttr lower cur a = [] := (AttrsDict.has_false_iff lower cur a).1 (by simpa using hh)
      rw [ih' _ hdis', List.filterMap_cons]
      simp [he]

end Laurelin
