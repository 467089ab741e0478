import Verif.Spec.OrderedMap
import Verif.Lemmas.CaseIgnoreDict
/-!
# C98 Dictionaries and objects under the methods they inherit; equality of objects
-/
namespace Laurelin.Props
open Laurelin Spec
namespace DictP
open PDict
variable {K V : Type} [DecidableEq K] {lower : K → K}

structure Rep (lower : K → K) (d : CIDict K V) (W : List K) : Prop where
  nk : (PDict.keys d.keys).Nodup
  nd : (PDict.keys d.data).Nodup
  cas : ∀ x k, d.keys.get? x = some k → lower k = x
  self : CIDict.Self lower d
  from_ : CIDict.From d W

theorem fold_eq {W : List K} (hW : OneSpelling lower W) {l : PDict K V} (hl : ∀ k ∈ PDict.keys l, k ∈ W) {k : K} (hk : k ∈ W) : ∀ p ∈ l, (lower p.1 = lower k ↔ p.1 = k) :=
  fun p hp => ⟨hW _ (hl _ (List.mem_map.2 ⟨p, hp, rfl⟩)) _ hk, fun h => by rw [h]⟩

theorem set_put (l : PDict K V) (k : K) (v : V) (hn : (PDict.keys l).Nodup) (he : ∀ p ∈ l, (lower p.1 = lower k ↔ p.1 = k)) : l.set k v = Items.put lower l k v := by
  induction l with
  | nil => simp [PDict.set, Items.put]
  | cons a t ih =>
    obtain ⟨x, w⟩ := a
    have hnt : (PDict.keys t).Nodup := (List.nodup_cons.1 hn).2
    have hx : x ∉ PDict.keys t := (List.nodup_cons.1 hn).1
    have hex := he (x, w) (List.mem_cons_self ..)
    have het : ∀ p ∈ t, (lower p.1 = lower k ↔ p.1 = k) := fun p hp => he p (List.mem_cons_of_mem _ hp)
    simp only [PDict.set]
    by_cases hxk : x = k
    · subst hxk
      rw [if_pos rfl]
      unfold Items.put
      rw [if_pos ⟨(x, w), List.mem_cons_self .., rfl⟩, List.map_cons, if_pos rfl]
      congr 1
      symm
      rw [List.map_congr_left (g := id), List.map_id]
      intro p hp
      rw [if_neg (fun h => hx (List.mem_map.2 ⟨p, hp, (het p hp).1 h⟩))]
      rfl
    · rw [if_neg hxk, ih hnt het]
      have hlx : ¬ lower x = lower k := fun h => hxk (hex.1 h)
      unfold Items.put
      by_cases hp : ∃ p ∈ t, lower p.1 = lower k
      · rw [if_pos hp, if_pos (by obtain ⟨p, h1, h2⟩ := hp; exact ⟨p, List.mem_cons_of_mem _ h1, h2⟩), List.map_cons, if_neg hlx]
      · rw [if_neg hp, if_neg (by
          rintro ⟨p, h1, h2⟩
          rcases List.mem_cons.1 h1 with rfl | h1
          · exact hlx h2
          · exact hp ⟨p, h1, h2⟩)]
        rfl

theorem erase_drop (l : PDict K V) (k k' : K) (hn : (PDict.keys l).Nodup) (he : ∀ p ∈ l, (lower p.1 = lower k ↔ p.1 = k')) : l.erase k' = Items.drop lower l k := by
  induction l with
  | nil => rfl
  | cons a t ih =>
    obtain ⟨x, w⟩ := a
    have hnt : (PDict.keys t).Nodup := (List.nodup_cons.1 hn).2
    have hx : x ∉ PDict.keys t := (List.nodup_cons.1 hn).1
    have hex := he (x, w) (List.mem_cons_self ..)
    have het : ∀ p ∈ t, (lower p.1 = lower k ↔ p.1 = k') := fun p hp => he p (List.mem_cons_of_mem _ hp)
    simp only [PDict.erase, Items.drop, List.filter_cons]
    by_cases hxk : x = k'
    · rw [if_pos hxk, if_neg (by simpa using hex.2 hxk)]
      symm
      rw [List.filter_eq_self]
      intro p hp
      simpa using fun h => hx (List.mem_map.2 ⟨p, hp, ((het p hp).1 h).trans hxk.symm⟩)
    · rw [if_neg hxk, if_pos (by simpa using fun h => hxk (hex.1 h)), ih hnt het]
      rfl

theorem get_value (l : PDict K V) (k k' : K) (he : ∀ p ∈ l, (lower p.1 = lower k ↔ p.1 = k')) : l.get? k' = Items.value lower l k := by
  induction l with
  | nil => rfl
  | cons a t ih =>
    obtain ⟨x, w⟩ := a
    have hex := he (x, w) (List.mem_cons_self ..)
    have iht := ih (fun p hp => he p (List.mem_cons_of_mem _ hp))
    simp only [PDict.get?, Items.value, List.find?_cons]
    by_cases hxk : x = k'
    · rw [if_pos hxk, decide_eq_true (hex.2 hxk)]
      rfl
    · rw [if_neg hxk, decide_eq_false (fun h => hxk (hex.1 h)), iht]
      rfl

/-- under one spelling the spelling that the dictionary knows for a name decides -/
theorem known {W : List K} {d : CIDict K V} (h : Rep lower d W) (k k' : K) (hk : d.keys.get? (lower k) = some k') : ∀ p ∈ d.data, (lower p.1 = lower k ↔ p.1 = k') := by
  intro p hp
  have hs := h.self p.1 (List.mem_map.2 ⟨p, hp, rfl⟩)
  constructor
  · intro he
    rw [he, hk] at hs
    exact (Option.some.inj hs).symm
  · rintro rfl
    exact h.cas _ _ hk

theorem unknown {W : List K} {d : CIDict K V} (h : Rep lower d W) (k : K) (hk : d.keys.get? (lower k) = none) : Items.value lower d.data k = none := by
  unfold Items.value
  rw [Option.map_eq_none_iff, List.find?_eq_none]
  intro p hp
  have hs := h.self p.1 (List.mem_map.2 ⟨p, hp, rfl⟩)
  simp only [decide_eq_true_eq]
  intro he
  rw [he, hk] at hs
  cases hs

theorem item_eq {W : List K} {d : CIDict K V} (h : Rep lower d W) (k : K) : d.getItem lower k = match Items.value lower d.data k with | some v => .ok v | none => .error .keyError := by
  unfold CIDict.getItem
  cases hk : d.keys.get? (lower k) with
  | none => rw [unknown h k hk]
  | some k' =>
    dsimp only
    rw [get_value d.data k k' (known h k k' hk)]
    cases Items.value lower d.data k <;> rfl

theorem rep_set {W : List K} (hW : OneSpelling lower W) {d : CIDict K V} (h : Rep lower d W) (k : K) (v : V) (hk : k ∈ W) :
    Rep lower (d.setItem lower k v) W ∧ (d.setItem lower k v).data = Items.put lower d.data k v := by
  have hs := CIDict.self_set lower d W k v h.self h.from_ hW hk
  refine ⟨⟨nodup_set _ _ _ h.nk, nodup_set _ _ _ h.nd, ?_, hs.1, hs.2⟩, set_put _ _ _ h.nd (fold_eq hW h.from_ hk)⟩
  intro x k' hx
  simp only [CIDict.setItem, get?_set] at hx
  by_cases h1 : x = lower k
  · rw [if_pos h1] at hx
    cases hx
    exact h1.symm
  · rw [if_neg h1] at hx
    exact h.cas _ _ hx

theorem rep_update {W : List K} (hW : OneSpelling lower W) (kvs : List (K × V)) : ∀ {d : CIDict K V} (_ : Rep lower d W) (_ : ∀ k ∈ kvs.map Prod.fst, k ∈ W),
    Rep lower (d.update lower kvs) W ∧ (d.update lower kvs).data = kvs.foldl (fun acc kv => Items.put lower acc kv.1 kv.2) d.data := by
  induction kvs with
  | nil => exact fun h _ => ⟨h, rfl⟩
  | cons a t ih =>
    intro d h hk
    have h1 := rep_set hW h a.1 a.2 (hk _ (List.mem_cons_self ..))
    have h2 := ih h1.1 (fun k hk' => hk k (List.mem_cons_of_mem _ hk'))
    refine ⟨h2.1, ?_⟩
    show (CIDict.update lower (d.setItem lower a.1 a.2) t).data = _
    rw [h2.2, h1.2]
    rfl

theorem rep_sub {W : List K} {d : CIDict K V} (h : Rep lower d W) (l : PDict K V) (hl : l.Sublist d.data) : Rep lower { d with data := l } W := by
  have hk : (PDict.keys l).Sublist (PDict.keys d.data) := hl.map _
  exact ⟨h.nk, hk.nodup h.nd, h.cas, fun k hk' => h.self k (hk.mem hk'), fun k hk' => h.from_ k (hk.mem hk')⟩

theorem erase_sub (l : PDict K V) (k : K) : (l.erase k).Sublist l := by
  induction l with
  | nil => exact .slnil
  | cons a t ih =>
    obtain ⟨x, w⟩ := a
    simp only [PDict.erase]
    split
    · exact List.sublist_cons_self ..
    · exact ih.cons₂ _

theorem step_eq {W : List K} (hW : OneSpelling lower W) {d : CIDict K V} (h : Rep lower d W) (c : DictCall K V) (hk : ∀ k ∈ spelled c, k ∈ W) :
    Rep lower (d.callStep lower c).1 W ∧ ((d.callStep lower c).1.data, (d.callStep lower c).2) = Items.step lower d.data c := by
  cases c with
  | op o =>
    cases o with
    | set k v =>
      have := rep_set hW h k v (hk k (List.mem_singleton.2 rfl))
      exact ⟨this.1, by show ((d.setItem lower k v).data, _) = _; rw [this.2]; rfl⟩
    | update kvs =>
      have := rep_update hW kvs h hk
      exact ⟨this.1, by show ((d.update lower kvs).data, _) = _; rw [this.2]; rfl⟩
    | clear => exact ⟨⟨List.nodup_nil, List.nodup_nil, nofun, nofun, nofun⟩, rfl⟩
    | get k =>
      simp only [CIDict.callStep, CIDict.step, Items.step, item_eq h]
      cases Items.value lower d.data k <;> exact ⟨h, rfl⟩
    | setdefault k v =>
      have hs := rep_set hW h k v (hk k (List.mem_singleton.2 rfl))
      simp only [CIDict.callStep, CIDict.step, CIDict.setDefault, Items.step, item_eq h]
      cases Items.value lower d.data k with
      | some w => exact ⟨h, rfl⟩
      | none => exact ⟨hs.1, by rw [← hs.2]⟩
    | del k =>
      simp only [CIDict.callStep, CIDict.step, CIDict.delItem, Items.step]
      cases h1 : d.keys.get? (lower k) with
      | none => rw [unknown h k h1]; exact ⟨h, rfl⟩
      | some k' =>
        dsimp only
        have he := known h k k' h1
        rw [← get_value d.data k k' he]
        cases h2 : d.data.get? k' with
        | none => exact ⟨h, rfl⟩
        | some w =>
          dsimp only
          refine ⟨⟨nodup_erase _ _ h.nk, nodup_erase _ _ h.nd, ?_, ?_, fun x hx => h.from_ x ((keys_erase_sublist _ _).mem hx)⟩, by rw [erase_drop d.data k k' h.nd he]⟩
          · intro x y hxy
            simp only [get?_erase _ _ _ h.nk] at hxy
            split at hxy
            · cases hxy
            · exact h.cas _ _ hxy
          · intro x hx
            have hx' : x ∈ PDict.keys d.data := (keys_erase_sublist _ _).mem hx
            have hne : x ≠ k' := by
              rintro rfl
              exact (get?_none_iff _ _).1 (get?_erase_self d.data x h.nd) hx
            have hs := h.self x hx'
            simp only [get?_erase _ _ _ h.nk]
            rw [if_neg, hs]
            intro hl
            rw [hl, h1] at hs
            exact hne (Option.some.inj hs).symm
  | pop k dflt =>
    have hkW := hk k (List.mem_singleton.2 rfl)
    have he := fold_eq hW h.from_ hkW
    simp only [CIDict.callStep, CIDict.pop, Items.step, ← get_value d.data k k he]
    cases h2 : d.data.get? k with
    | none => cases dflt <;> exact ⟨h, rfl⟩
    | some w => exact ⟨rep_sub h _ (erase_sub _ _), by rw [erase_drop d.data k k h.nd he]⟩
  | popitem =>
    simp only [CIDict.callStep, CIDict.popitem, Items.step]
    cases h2 : d.data.getLast? with
    | none => exact ⟨h, rfl⟩
    | some p => exact ⟨rep_sub h _ (List.dropLast_sublist _), rfl⟩
  | items => exact ⟨h, rfl⟩

theorem run_eq {W : List K} (hW : OneSpelling lower W) (cs : List (DictCall K V)) : ∀ {d : CIDict K V} (_ : Rep lower d W) (_ : ∀ k ∈ cs.flatMap spelled, k ∈ W),
    Rep lower (d.callRun lower cs).1 W ∧ ((d.callRun lower cs).1.data, (d.callRun lower cs).2) = Items.run lower d.data cs := by
  induction cs with
  | nil => exact fun h _ => ⟨h, rfl⟩
  | cons c cs ih =>
    intro d h hk
    have h1 := step_eq hW h c (fun k hk' => hk k (List.mem_flatMap.2 ⟨c, List.mem_cons_self .., hk'⟩))
    have h2 := ih h1.1 (fun k hk' => by
      obtain ⟨c', hc', hk'⟩ := List.mem_flatMap.1 hk'
      exact hk k (List.mem_flatMap.2 ⟨c', List.mem_cons_of_mem _ hc', hk'⟩))
    refine ⟨h2.1, ?_⟩
    simp only [CIDict.callRun, Items.run, ← h1.2, ← h2.2]

theorem rep_empty (W : List K) : Rep lower (CIDict.empty : CIDict K V) W := ⟨List.nodup_nil, List.nodup_nil, nofun, nofun, nofun⟩

end DictP

variable {K V : Type} [DecidableEq K] {lower : K → K}

/-- **C98 (an ordered dictionary).** If keys are always written and popped in one spelling, and looked up and deleted in any, a dictionary is for every history of method calls exactly a list of items in order of
insertion whose keys are compared without regard to casing: every call gives what that gives, and so does every lookup in the end. -/
theorem c98_ordered_partial (cs : List (DictCall K V)) (hc : OneSpelling lower (cs.flatMap spelled)) :
    let d := (CIDict.callRun lower CIDict.empty cs).1
    let m := Items.run lower [] cs
    (CIDict.callRun lower CIDict.empty cs).2 = m.2 ∧ d.items = m.1 ∧ ∀ k, d.get lower k = Items.value lower m.1 k := by
  intro d m
  have h := DictP.run_eq hc cs (DictP.rep_empty _) (fun k hk => hk)
  have h2 : (d.data, (CIDict.callRun lower CIDict.empty cs).2) = m := h.2
  refine ⟨by rw [← h2], by rw [← h2]; rfl, fun k => ?_⟩
  rw [← h2]
  unfold CIDict.get
  rw [DictP.item_eq h.1]
  cases Items.value lower d.data k <;> rfl

/-! ## Equality -/
namespace DictP
open PDict
variable {K V : Type} [DecidableEq K] {lower : K → K}

theorem subset_back {α : Type} [DecidableEq α] (a : List α) : ∀ b : List α, a.Nodup → (∀ x ∈ a, x ∈ b) → a.length ≤ b.length ∧ (b.length ≤ a.length → ∀ x ∈ b, x ∈ a) := by
  induction a with
  | nil =>
    intro b _ _
    refine ⟨Nat.zero_le _, fun h x hx => ?_⟩
    rw [List.eq_nil_of_length_eq_zero (Nat.le_zero.1 h)] at hx
    exact hx
  | cons y t ih =>
    intro b hn hs
    have hy : y ∈ b := hs y (List.mem_cons_self ..)
    have hyt : y ∉ t := (List.nodup_cons.1 hn).1
    have hlen := List.length_erase_of_mem hy
    have hpos : 0 < b.length := List.length_pos_of_mem hy
    obtain ⟨h1, h2⟩ := ih (b.erase y) (List.nodup_cons.1 hn).2 (fun x hx => (List.mem_erase_of_ne (fun h : x = y => hyt (h ▸ hx))).2 (hs x (List.mem_cons_of_mem _ hx)))
    refine ⟨by rw [List.length_cons]; omega, fun h x hx => ?_⟩
    by_cases hxy : x = y
    · exact hxy ▸ List.mem_cons_self ..
    · exact List.mem_cons_of_mem _ (h2 (by rw [List.length_cons] at h; omega) x ((List.mem_erase_of_ne hxy).2 hx))

theorem eqv_iff [DecidableEq V] (a b : CIDict K V) (ha : (PDict.keys a.data).Nodup) (hb : (PDict.keys b.data).Nodup) : CIDict.eqv a b = true ↔ ∀ k, a.data.get? k = b.data.get? k := by
  have hlen : ∀ d : CIDict K V, (PDict.keys d.data).length = d.data.length := fun d => List.length_map ..
  simp only [CIDict.eqv, Bool.and_eq_true, beq_iff_eq, List.all_eq_true]
  constructor
  · rintro ⟨h1, h2⟩ k
    have hab : ∀ k v, a.data.get? k = some v → b.data.get? k = some v := fun k v h => h2 (k, v) (mem_of_get? _ _ _ h)
    cases hk : a.data.get? k with
    | some v => rw [hab k v hk]
    | none =>
      symm
      rw [get?_none_iff]
      intro hkb
      refine (get?_none_iff _ _).1 hk ((subset_back _ _ ha (fun x hx => ?_)).2 (by rw [hlen, hlen, h1]; exact Nat.le_refl _) k hkb)
      obtain ⟨v, hv⟩ := (mem_keys_iff _ _).1 hx
      exact (mem_keys_iff _ _).2 ⟨v, hab _ _ hv⟩
  · intro h
    refine ⟨?_, fun kv hkv => by rw [← h, (mem_iff_get? _ ha kv.1 kv.2).1 hkv]⟩
    have h1 := (subset_back _ _ ha (fun x hx => (mem_keys_iff _ _).2 ((h x) ▸ (mem_keys_iff _ _).1 hx))).1
    have h2 := (subset_back _ _ hb (fun x hx => (mem_keys_iff _ _).2 ((h x).symm ▸ (mem_keys_iff _ _).1 hx))).1
    rw [hlen, hlen] at h1 h2
    omega

theorem nodup_update (kvs : List (K × V)) : ∀ d : CIDict K V, (PDict.keys d.data).Nodup → (PDict.keys (d.update lower kvs).data).Nodup := by
  induction kvs with
  | nil => exact fun _ h => h
  | cons a t ih => exact fun d h => ih _ (nodup_set _ _ _ h)

theorem nodup_step (d : CIDict K V) (h : (PDict.keys d.data).Nodup) (c : DictCall K V) : (PDict.keys (d.callStep lower c).1.data).Nodup := by
  have hsub : ∀ l : PDict K V, l.Sublist d.data → (PDict.keys l).Nodup := fun l hl => (hl.map Prod.fst).nodup h
  cases c with
  | op o =>
    cases o with
    | set k v => exact nodup_set _ _ _ h
    | update kvs => exact nodup_update kvs d h
    | clear => exact List.nodup_nil
    | get k =>
      simp only [CIDict.callStep, CIDict.step]
      split <;> exact h
    | setdefault k v =>
      simp only [CIDict.callStep, CIDict.step, CIDict.setDefault]
      split
      · exact h
      · exact nodup_set _ _ _ h
    | del k =>
      simp only [CIDict.callStep, CIDict.step, CIDict.delItem]
      cases h1 : d.keys.get? (lower k) with
      | none => exact h
      | some k' =>
        dsimp only
        cases h2 : d.data.get? k' with
        | none => exact h
        | some w => exact hsub _ (erase_sub _ _)
  | pop k dflt =>
    simp only [CIDict.callStep, CIDict.pop]
    cases h2 : d.data.get? k with
    | none => cases dflt <;> exact h
    | some w => exact hsub _ (erase_sub _ _)
  | popitem =>
    simp only [CIDict.callStep, CIDict.popitem]
    cases h2 : d.data.getLast? with
    | none => exact h
    | some p => exact hsub _ (List.dropLast_sublist _)
  | items => exact h

theorem nodup_run (cs : List (DictCall K V)) : ∀ d : CIDict K V, (PDict.keys d.data).Nodup → (PDict.keys (d.callRun lower cs).1.data).Nodup := by
  induction cs with
  | nil => exact fun _ h => h
  | cons c cs ih => exact fun d h => ih _ (nodup_step d h c)

theorem value_fold (l : PDict K V) (k k' : K) (h : lower k = lower k') : Items.value lower l k = Items.value lower l k' := by
  simp only [Items.value, h]

theorem value_mem (l : PDict K V) (k : K) (v : V) (h : Items.value lower l k = some v) : ∃ x, (x, v) ∈ l ∧ lower x = lower k := by
  obtain ⟨p, hp, rfl⟩ := Option.map_eq_some_iff.1 h
  exact ⟨p.1, List.mem_of_find?_eq_some hp, by simpa using List.find?_some hp⟩

theorem rep_value {W : List K} (hW : OneSpelling lower W) {d : CIDict K V} (h : Rep lower d W) (k : K) (v : V) : Items.value lower d.data k = some v ↔ ∃ x, d.data.get? x = some v ∧ lower x = lower k := by
  constructor
  · intro hv
    obtain ⟨x, h1, h2⟩ := value_mem _ _ _ hv
    exact ⟨x, (mem_iff_get? _ h.nd x v).1 h1, h2⟩
  · rintro ⟨x, h1, h2⟩
    rw [← value_fold _ x k h2, ← get_value d.data x x (fold_eq hW h.from_ (h.from_ x ((mem_keys_iff _ _).2 ⟨v, h1⟩)))]
    exact h1

end DictP

/-- **C98 (equal objects show the same).** Objects made by any histories, each with one spelling of every name: if they compare equal they have the same DN and give the same values for every attribute, whatever the
casing asked for. If both use the same spellings the converse holds. And `!=` is the opposite. -/
theorem c98_equal_partial {V : Type} [DecidableEq V] (lower : Str → Str) (dn dn' : Str) (cs cs' : List (DictCall Str V)) (hc : OneSpelling lower (cs.flatMap spelled)) (hc' : OneSpelling lower (cs'.flatMap spelled)) :
    let d := (CIDict.callRun lower CIDict.empty cs).1
    let d' := (CIDict.callRun lower CIDict.empty cs').1
    (objEq (dn, d) (dn', d') = true → dn = dn' ∧ ∀ k, d.get lower k = d'.get lower k) ∧
    (OneSpelling lower (cs.flatMap spelled ++ cs'.flatMap spelled) → dn = dn' → (∀ k, d.get lower k = d'.get lower k) → objEq (dn, d) (dn', d') = true) ∧
    objNe (dn, d) (dn', d') = !objEq (dn, d) (dn', d') := by
  intro d d'
  have h : DictP.Rep lower d _ := (DictP.run_eq hc cs (DictP.rep_empty _) (fun k hk => hk)).1
  have h' : DictP.Rep lower d' _ := (DictP.run_eq hc' cs' (DictP.rep_empty _) (fun k hk => hk)).1
  have hg : ∀ k, d.get lower k = Items.value lower d.data k := fun k => by
    unfold CIDict.get
    rw [DictP.item_eq h]
    cases Items.value lower d.data k <;> rfl
  have hg' : ∀ k, d'.get lower k = Items.value lower d'.data k := fun k => by
    unfold CIDict.get
    rw [DictP.item_eq h']
    cases Items.value lower d'.data k <;> rfl
  have hval : ∀ {W W' : List Str} {a b : CIDict Str V}, OneSpelling lower W → DictP.Rep lower a W → OneSpelling lower W' → DictP.Rep lower b W' → (∀ k, a.data.get? k = b.data.get? k) → ∀ k, Items.value lower a.data k = Items.value lower b.data k := by
    intro W W' a b hW ha hW' hb he k
    have key : ∀ v, Items.value lower a.data k = some v ↔ Items.value lower b.data k = some v := fun v => by
      rw [DictP.rep_value hW ha, DictP.rep_value hW' hb]
      simp only [he]
    cases hv : Items.value lower a.data k with
    | some v => exact ((key v).1 hv).symm
    | none =>
      cases hw : Items.value lower b.data k with
      | none => rfl
      | some w => rw [(key w).2 hw] at hv; cases hv
  refine ⟨fun he => ?_, fun hj hdn hk => ?_, rfl⟩
  · unfold objEq at he
    by_cases hdn : dn = dn'
    · simp only [ne_eq, hdn, not_true_eq_false, if_false] at he
      refine ⟨hdn, fun k => ?_⟩
      rw [hg, hg']
      exact hval hc h hc' h' ((DictP.eqv_iff _ _ h.nd h'.nd).1 he) k
    · simp only [ne_eq, hdn, not_false_eq_true, if_true, Bool.false_eq_true] at he
  · unfold objEq
    simp only [ne_eq, hdn, not_true_eq_false, if_false]
    rw [DictP.eqv_iff _ _ h.nd h'.nd]
    intro k
    have w : ∀ x, x ∈ PDict.keys d.data → x ∈ cs.flatMap spelled ++ cs'.flatMap spelled := fun x hx => List.mem_append_left _ (h.from_ x hx)
    have w' : ∀ x, x ∈ PDict.keys d'.data → x ∈ cs.flatMap spelled ++ cs'.flatMap spelled := fun x hx => List.mem_append_right _ (h'.from_ x hx)
    by_cases hkW : k ∈ cs.flatMap spelled ++ cs'.flatMap spelled
    · rw [DictP.get_value d.data k k (DictP.fold_eq hj w hkW), DictP.get_value d'.data k k (DictP.fold_eq hj w' hkW), ← hg, ← hg', hk]
    · rw [(PDict.get?_none_iff _ _).2 (fun hx => hkW (w k hx)), (PDict.get?_none_iff _ _).2 (fun hx => hkW (w' k hx))]

/-- **C98 (an equivalence).** `==` of objects, whatever has been done to them, is reflexive, symmetric and transitive. -/
theorem c98_equivalence {V : Type} [DecidableEq V] (lower : Str → Str) (objs : List (Str × List (DictCall Str V))) :
    let made := objs.map (fun o => (o.1, (CIDict.callRun lower CIDict.empty o.2).1))
    ∀ a ∈ made, objEq a a = true ∧ ∀ b ∈ made, objEq a b = objEq b a ∧ ∀ c ∈ made, objEq a b = true → objEq b c = true → objEq a c = true := by
  intro made
  have hn : ∀ a ∈ made, (PDict.keys a.2.data).Nodup := by
    intro a ha
    obtain ⟨o, _, rfl⟩ := List.mem_map.1 ha
    exact DictP.nodup_run o.2 _ List.nodup_nil
  have key : ∀ a ∈ made, ∀ b ∈ made, (objEq a b = true ↔ a.1 = b.1 ∧ ∀ k, a.2.data.get? k = b.2.data.get? k) := by
    intro a ha b hb
    unfold objEq
    by_cases hdn : a.1 = b.1
    · simp only [ne_eq, hdn, not_true_eq_false, if_false, true_and]
      exact DictP.eqv_iff _ _ (hn a ha) (hn b hb)
    · simp only [ne_eq, hdn, not_false_eq_true, if_true, Bool.false_eq_true, false_and]
  intro a ha
  refine ⟨(key a ha a ha).2 ⟨rfl, fun _ => rfl⟩, fun b hb => ⟨?_, fun c hc h1 h2 => ?_⟩⟩
  · rw [Bool.eq_iff_iff, key a ha b hb, key b hb a ha]
    exact ⟨fun h => ⟨h.1.symm, fun k => (h.2 k).symm⟩, fun h => ⟨h.1.symm, fun k => (h.2 k).symm⟩⟩
  · have h1 := (key a ha b hb).1 h1
    have h2 := (key b hb c hc).1 h2
    exact (key a ha c hc).2 ⟨h1.1.trans h2.1, fun k => (h1.2 k).trans (h2.2 k)⟩

/-! ## What does not hold, and runs -/
namespace DictP
def lc : Str → Str := List.map Char.toLower
def after (cs : List (DictCall Str (List Str))) : CIDict Str (List Str) := (CIDict.callRun lc CIDict.empty cs).1

-- the hypotheses of `c98_ordered_partial` and `c98_equal_partial` on a history; lookups in other casings
example : OneSpelling lc ([.op (.set (str "cn") [str "a"]), .op (.set (str "sn") []), .op (.get (str "CN")), .pop (str "sn") none, .op (.setdefault (str "uid") [str "u"]), .popitem, .op (.del (str "CN")), .pop (str "cn") (some []), .items].flatMap
    (spelled (K := Str) (V := List Str))) := by unfold OneSpelling; decide
example : (CIDict.callRun lc CIDict.empty ([.op (.set (str "cn") [str "a"]), .op (.set (str "sn") []), .op (.get (str "CN")), .pop (str "sn") none, .op (.setdefault (str "uid") [str "u"]), .popitem, .op (.del (str "CN")),
      .pop (str "cn") (some []), .items] : List (DictCall Str (List Str)))).2 =
    [.out .unit, .out .unit, .out (.val [str "a"]), .out (.val []), .out (.val [str "u"]), .item (str "uid") [str "u"], .out .unit, .out (.val []), .list []] := by decide
example : objEq (str "o=a", after [.op (.set (str "cn") [str "a"]), .op (.set (str "sn") [])]) (str "o=a", after [.op (.set (str "sn") []), .op (.set (str "cn") [str "a"])]) = true := by decide
end DictP

open DictP in
/-- **C98 (spelling matters for pop and equality).** A key that is `in` the dictionary cannot be popped in another casing: `KeyError`, or the default. Objects that show the same values for every attribute are different if
a name is spelled differently, the values are in another order, or the DN is spelled differently. -/
theorem c98_spelling :
    ((after [.op (.set (str "cn") [str "a"])]).contains lc (str "CN") = true ∧ ((after [.op (.set (str "cn") [str "a"])]).pop (str "CN") none).2 = .out .keyError) ∧
    objEq (str "o=a", after [.op (.set (str "cn") [str "a"])]) (str "o=a", after [.op (.set (str "CN") [str "a"])]) = false ∧
    objEq (str "o=a", after [.op (.set (str "cn") [str "a", str "b"])]) (str "o=a", after [.op (.set (str "cn") [str "b", str "a"])]) = false ∧
    objEq (str "o=a", after []) (str "O=a", after []) = false := by decide

open DictP in
/-- **C98 (equal, and yet different).** Objects in which a name was written in two casings may compare equal although they give different values for it. -/
theorem c98_equal_but_different :
    let a := after [.op (.set (str "cn") [str "a"]), .op (.set (str "CN") [str "b"])]
    let b := after [.op (.set (str "CN") [str "b"]), .op (.set (str "cn") [str "a"])]
    objEq (str "o=a", a) (str "o=a", b) = true ∧ a.get lc (str "cn") = some [str "b"] ∧ b.get lc (str "cn") = some [str "a"] := by decide

end Laurelin.Props
