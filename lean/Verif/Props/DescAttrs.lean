import Verif.Spec.DescAttrs
import Verif.Lemmas.Mirror
/-!
Property C52: structured descriptions.
-/
namespace Laurelin.Props
open Laurelin DescAttrs Spec Spec.DescS

namespace DescP
variable (lower : Str → Str)

/-- what the dictionary holds under a folded key -/
def content (d : AttrsDict Str) : Content := fun x => (CIDict.abs d x).getD []

/-- the invariant: every non-empty list is the current one of its key; keys come from `W` and hold no `=` -/
structure Good (W : Str → Prop) (d : AttrsDict Str) : Prop where
  inv : CIDict.Inv lower d
  cur : ∀ k l, d.data.get? k = some l → l ≠ [] → d.keys.get? (lower k) = some k
  plain : ∀ k l, d.data.get? k = some l → '=' ∉ k
  from_ : ∀ k l, d.data.get? k = some l → W k

variable {lower} {W : Str → Prop}

theorem good_empty : Good lower W CIDict.empty :=
  ⟨CIDict.inv_empty lower, by simp [CIDict.empty], by simp [CIDict.empty], by simp [CIDict.empty]⟩

theorem content_empty : content CIDict.empty = fun _ => [] := by
  funext x; simp [content, CIDict.abs, CIDict.empty]

theorem getAttr_content (d : AttrsDict Str) (h : Good lower W d) (a : Str) : AttrsDict.getAttr lower d a = content d (lower a) :=
  getAttr_abs lower d h.inv a

theorem good_set (d : AttrsDict Str) (h : Good lower W d) (k : Str) (l : List Str) (hk : '=' ∉ k) (hW : W k)
    (hu : ∀ k' l', d.data.get? k' = some l' → l' ≠ [] → lower k' = lower k → k' = k) :
    Good lower W (CIDict.setItem lower d k l) ∧ content (CIDict.setItem lower d k l) = (content d).put (lower k) l := by
  refine ⟨⟨CIDict.inv_set lower d k l h.inv, ?_, ?_, ?_⟩, ?_⟩
  · intro k' l' h1 h2
    simp only [CIDict.setItem, PDict.get?_set] at h1 ⊢
    by_cases e : k' = k
    · simp [e]
    · rw [if_neg e] at h1
      rw [if_neg (fun q => e (hu k' l' h1 h2 q))]
      exact h.cur k' l' h1 h2
  · intro k' l' h1
    simp only [CIDict.setItem, PDict.get?_set] at h1
    split at h1
    · rename_i e; rw [e]; exact hk
    · exact h.plain k' l' h1
  · intro k' l' h1
    simp only [CIDict.setItem, PDict.get?_set] at h1
    split at h1
    · rename_i e; rw [e]; exact hW
    · exact h.from_ k' l' h1
  · funext x
    simp only [content, CIDict.abs_set lower d k l h.inv, FoldMap.put, Content.put]
    split <;> rfl

theorem cur_content (d : AttrsDict Str) (h : Good lower W d) (k : Str) (l : List Str) (h1 : d.data.get? k = some l) (h2 : l ≠ []) :
    content d (lower k) = l := by
  simp [content, CIDict.abs, h.cur k l h1 h2, h1]

/-- writing in place under a key that is there -/
theorem good_inPlace (d : AttrsDict Str) (h : Good lower W d) (a : Str) (l : List Str) (hp : ∃ w, CIDict.abs d (lower a) = some w) :
    Good lower W (AttrsDict.setInPlace lower d a l) ∧ content (AttrsDict.setInPlace lower d a l) = (content d).put (lower a) l ∧
      CIDict.abs (AttrsDict.setInPlace lower d a l) (lower a) = some l := by
  obtain ⟨w, hw⟩ := hp
  simp only [CIDict.abs] at hw
  cases hk : d.keys.get? (lower a) with
  | none => rw [hk] at hw; simp at hw
  | some k =>
    rw [hk] at hw
    have hc := (h.inv.cas _ _ hk).1
    have e : AttrsDict.setInPlace lower d a l = CIDict.setItem lower d k l := by
      simp only [AttrsDict.setInPlace, hk, CIDict.setItem, hc]
      rw [PDict.set_self _ _ _ hk]
    rw [e]
    have := good_set d h k l (h.plain k w hw) (h.from_ k w hw) (fun k' l' h1 h2 h3 => by
      have := h.cur k' l' h1 h2
      rw [h3, hc, hk] at this; cases this; rfl)
    rw [hc] at this
    refine ⟨this.1, this.2, ?_⟩
    rw [CIDict.abs_set lower d k l h.inv]; simp [FoldMap.put, hc]

/-- nothing stored under the key: any spelling may be used -/
theorem free_key (d : AttrsDict Str) (h : Good lower W d) (a : Str) (hn : content d (lower a) = []) :
    ∀ k' l', d.data.get? k' = some l' → l' ≠ [] → lower k' = lower a → k' = a := by
  intro k' l' h1 h2 h3
  have := cur_content d h k' l' h1 h2
  rw [h3, hn] at this
  exact absurd this.symm h2

theorem put_put (c : Content) (x : Str) (l l' : List Str) : (c.put x l).put x l' = c.put x l' := by
  funext y; simp only [Content.put]; split <;> rfl

theorem put_self (c : Content) (x : Str) : c.put x (c x) = c := by
  funext y; simp only [Content.put]; split <;> simp_all

theorem put_at (c : Content) (x : Str) (l : List Str) : (c.put x l) x = l := by simp [Content.put]

theorem addVals_ok (a : Str) (vs : List Str) : ∀ (d : AttrsDict Str), Good lower W d → (∃ w, CIDict.abs d (lower a) = some w) →
    Good lower W (vs.foldl (addVal lower a) d) ∧
    content (vs.foldl (addVal lower a) d) = (content d).put (lower a) (appendNew (content d (lower a)) vs) := by
  induction vs with
  | nil => intro d h _; exact ⟨h, by simp [appendNew, put_self]⟩
  | cons v vs ih =>
    intro d h hp
    simp only [List.foldl_cons]
    by_cases hv : v ∈ content d (lower a)
    · have e : addVal lower a d v = d := by simp [addVal, getAttr_content d h, hv]
      rw [e]
      have := ih d h hp
      simpa [appendNew, hv] using this
    · have e : addVal lower a d v = AttrsDict.setInPlace lower d a (content d (lower a) ++ [v]) := by
        simp [addVal, getAttr_content d h, hv]
      obtain ⟨h1, h2, h3⟩ := good_inPlace d h a (content d (lower a) ++ [v]) hp
      rw [← e] at h1 h2 h3
      have := ih _ h1 ⟨_, h3⟩
      refine ⟨this.1, ?_⟩
      rw [this.2, h2, put_put, put_at]
      simp [appendNew, hv]

theorem has_content (d : AttrsDict Str) (h : Good lower W d) (a : Str) : AttrsDict.has lower d a = true ↔ content d (lower a) ≠ [] := by
  rw [AttrsDict.has_iff, getAttr_content d h]

theorem content_some (d : AttrsDict Str) (x : Str) (h : content d x ≠ []) : ∃ w, CIDict.abs d x = some w := by
  unfold content at h
  cases hc : CIDict.abs d x with
  | none => rw [hc] at h; exact absurd rfl h
  | some w => exact ⟨w, rfl⟩

theorem addOne_ok (d : AttrsDict Str) (h : Good lower W d) (kv : Str × List Str) (hk : '=' ∉ kv.1) (hW : W kv.1) :
    Good lower W (addOne lower d kv) ∧ content (addOne lower d kv) = addItem lower (content d) kv := by
  unfold addOne addItem
  by_cases hc : content d (lower kv.1) = []
  · have : ¬ AttrsDict.has lower d kv.1 = true := by rw [has_content d h]; simp [hc]
    rw [if_neg this, if_pos hc]
    exact good_set d h kv.1 kv.2 hk hW (free_key d h kv.1 hc)
  · rw [if_pos ((has_content d h kv.1).2 hc), if_neg hc]
    exact addVals_ok kv.1 kv.2 d h (content_some d _ hc)

theorem removeVals_ok (a : Str) (vs : List Str) : ∀ (d : AttrsDict Str), Good lower W d → (∃ w, CIDict.abs d (lower a) = some w) →
    Good lower W (vs.foldl (removeVal lower a) d) ∧
    content (vs.foldl (removeVal lower a) d) = (content d).put (lower a) (removeEach (content d (lower a)) vs) := by
  induction vs with
  | nil => intro d h _; exact ⟨h, by simp [removeEach, put_self]⟩
  | cons v vs ih =>
    intro d h hp
    simp only [List.foldl_cons]
    obtain ⟨w, hw⟩ := hp
    have hcw : content d (lower a) = w := by simp [content, hw]
    have e : removeVal lower a d v = AttrsDict.setInPlace lower d a (w.erase v) := by
      simp [removeVal, CIDict.getItem_eq lower d h.inv, hw]
    obtain ⟨h1, h2, h3⟩ := good_inPlace d h a (w.erase v) ⟨w, hw⟩
    rw [← e] at h1 h2 h3
    have := ih _ h1 ⟨_, h3⟩
    refine ⟨this.1, ?_⟩
    rw [this.2, h2, put_put, put_at, hcw]; rfl

theorem removeEach_nil (vs : List Str) : removeEach [] vs = [] := by
  induction vs with
  | nil => rfl
  | cons v vs ih => simpa [removeEach] using ih

theorem good_del (d d' : AttrsDict Str) (h : Good lower W d) (a : Str) (hd : CIDict.delItem lower d a = .ok d') :
    Good lower W d' ∧ content d' = (content d).put (lower a) [] := by
  have hf := delItem_frame lower d d' h.inv a hd
  unfold CIDict.delItem at hd
  split at hd
  · cases hd
  · rename_i k hk
    split at hd
    · cases hd
    · rename_i w hw
      cases hd
      have hc := (h.inv.cas _ _ hk).1
      refine ⟨⟨hf.1, ?_, ?_, ?_⟩, ?_⟩
      · intro k' l h1 h2
        simp only [PDict.get?_erase _ _ _ h.inv.nd, PDict.get?_erase _ _ _ h.inv.nk] at h1 ⊢
        split at h1
        · cases h1
        · rename_i e
          have := h.cur k' l h1 h2
          rw [if_neg, this]
          intro q
          rw [q, hk] at this; cases this; exact e rfl
      · intro k' l h1
        simp only [PDict.get?_erase _ _ _ h.inv.nd] at h1
        split at h1
        · cases h1
        · exact h.plain k' l h1
      · intro k' l h1
        simp only [PDict.get?_erase _ _ _ h.inv.nd] at h1
        split at h1
        · cases h1
        · exact h.from_ k' l h1
      · funext x
        by_cases hx : x = lower a
        · subst hx
          rw [put_at]
          simp [content, CIDict.abs, PDict.get?_erase _ _ _ h.inv.nk]
        · simp only [content, Content.put, hf.2 x hx, if_neg hx]

theorem deleteOne_ok (d : AttrsDict Str) (h : Good lower W d) (kv : Str × List Str) :
    Good lower W (deleteOne lower d kv) ∧ content (deleteOne lower d kv) = deleteItem lower (content d) kv := by
  unfold deleteOne deleteItem
  by_cases hc : content d (lower kv.1) = []
  · have : ¬ AttrsDict.has lower d kv.1 = true := by rw [has_content d h]; simp [hc]
    rw [if_neg this, hc, removeEach_nil]
    refine ⟨h, ?_⟩
    rw [ite_self, ← hc, put_self]
  · rw [if_pos ((has_content d h kv.1).2 hc)]
    obtain ⟨w, hw⟩ := content_some d _ hc
    obtain ⟨k, vs⟩ := kv
    cases vs with
    | nil =>
      obtain ⟨d', h1, _⟩ := CIDict.del_some lower d h.inv k w hw
      simp only [h1, if_true]
      exact good_del d d' h k h1
    | cons v vs =>
      simp only [reduceCtorEq, if_false]
      exact removeVals_ok k (v :: vs) d h ⟨w, hw⟩

/-- a modification does what it asks for -/
theorem apply_ok (d : AttrsDict Str) (h : Good lower W d) (op : DOp) (hk : ∀ k ∈ keysOf op, '=' ∉ k ∧ W k)
    (hr : ∀ attrs, op = .replace attrs → ∀ a ∈ attrs.keys, ∀ b, W b → lower b = lower a → b = a) :
    Good lower W (apply lower d op) ∧ content (apply lower d op) = asked lower (content d) op := by
  cases op with
  | add attrs =>
    have hk' : ∀ kv ∈ attrs, '=' ∉ kv.1 ∧ W kv.1 := fun kv hkv => hk kv.1 (List.mem_map.2 ⟨kv, hkv, rfl⟩)
    simp only [apply, asked]
    clear hk hr
    induction attrs generalizing d with
    | nil => exact ⟨h, rfl⟩
    | cons kv attrs ih =>
      obtain ⟨h1, h2⟩ := addOne_ok d h kv (hk' kv (by simp)).1 (hk' kv (by simp)).2
      simp only [List.foldl_cons]
      rw [← h2]
      exact ih _ h1 (fun kv' h' => hk' kv' (by simp [h']))
  | replace attrs =>
    have hk' : ∀ kv ∈ attrs, '=' ∉ kv.1 ∧ W kv.1 ∧ ∀ b, W b → lower b = lower kv.1 → b = kv.1 := fun kv hkv =>
      ⟨(hk kv.1 (List.mem_map.2 ⟨kv, hkv, rfl⟩)).1, (hk kv.1 (List.mem_map.2 ⟨kv, hkv, rfl⟩)).2, hr attrs rfl kv.1 (List.mem_map.2 ⟨kv, hkv, rfl⟩)⟩
    simp only [apply, asked, CIDict.update]
    clear hk hr
    induction attrs generalizing d with
    | nil => exact ⟨h, rfl⟩
    | cons kv attrs ih =>
      obtain ⟨a, b, c⟩ := hk' kv (by simp)
      obtain ⟨h1, h2⟩ := good_set d h kv.1 kv.2 a b (fun k' l' q1 _ q3 => c k' (h.from_ k' l' q1) q3)
      simp only [List.foldl_cons]
      have : replaceItem lower (content d) kv = content (CIDict.setItem lower d kv.1 kv.2) := h2.symm
      rw [this]
      exact ih _ h1 (fun kv' h' => hk' kv' (by simp [h']))
  | delete attrs =>
    simp only [apply, asked]
    clear hk hr
    induction attrs generalizing d with
    | nil => exact ⟨h, rfl⟩
    | cons kv attrs ih =>
      obtain ⟨h1, h2⟩ := deleteOne_ok d h kv
      simp only [List.foldl_cons]
      rw [← h2]
      exact ih _ h1

/-! reading -/

theorem structured_iff (d k v : Str) : Structured d k v ↔ splitFirst '=' d = some (k, v) := by
  rw [splitFirst_some]; unfold Structured; constructor
  · rintro ⟨a, b⟩; exact ⟨b, by simpa using a⟩
  · rintro ⟨a, b⟩; exact ⟨by simpa using b, a⟩

theorem says_fun {x : Str} {ds l l' : List Str} (h : Says lower x ds l) (h' : Says lower x ds l') : l = l' := by
  induction h generalizing l' with
  | nil => cases h'; rfl
  | @here d key v ds l hs he _ ih =>
    have e := (structured_iff _ _ _).1 hs
    cases h' with
    | here hs' he' h'' => rw [(structured_iff _ _ _).1 hs'] at e; cases e; rw [ih h'']
    | other hs' he' h'' => rw [(structured_iff _ _ _).1 hs'] at e; cases e; exact absurd he he'
    | unstructured hn _ => rw [(splitFirst_none _ _).2 hn] at e; cases e
  | @other d key v ds l hs he _ ih =>
    have e := (structured_iff _ _ _).1 hs
    cases h' with
    | here hs' he' h'' => rw [(structured_iff _ _ _).1 hs'] at e; cases e; exact absurd he' he
    | other hs' he' h'' => exact ih h''
    | unstructured hn _ => rw [(splitFirst_none _ _).2 hn] at e; cases e
  | @unstructured d ds l hn _ ih =>
    have e := (splitFirst_none _ _).2 hn
    cases h' with
    | here hs' he' h'' => rw [(structured_iff _ _ _).1 hs'] at e; cases e
    | other hs' he' h'' => exact ih h''
    | unstructured hn _ => exact ih ‹_›

theorem says_append {x : Str} {ds ds' l l' : List Str} (h : Says lower x ds l) (h' : Says lower x ds' l') : Says lower x (ds ++ ds') (l ++ l') := by
  induction h with
  | nil => exact h'
  | here a b _ ih => exact .here a b ih
  | other a b _ ih => exact .other a b ih
  | unstructured a _ ih => exact .unstructured a ih

theorem says_total (x : Str) (ds : List Str) : ∃ l, Says lower x ds l := by
  induction ds with
  | nil => exact ⟨[], .nil⟩
  | cons d ds ih =>
    obtain ⟨l, hl⟩ := ih
    cases h : splitFirst '=' d with
    | none => exact ⟨l, .unstructured ((splitFirst_none _ _).1 h) hl⟩
    | some q =>
      obtain ⟨k, v⟩ := q
      by_cases e : lower k = x
      · exact ⟨_, .here ((structured_iff _ _ _).2 h) e hl⟩
      · exact ⟨l, .other ((structured_iff _ _ _).2 h) e hl⟩

theorem setDefault_ok (d : AttrsDict Str) (h : Good lower W d) (k : Str) (hk : '=' ∉ k) (hW : W k) :
    Good lower W (AttrsDict.setDefault lower d k (some [])).1 ∧ content (AttrsDict.setDefault lower d k (some [])).1 = content d ∧
      (AttrsDict.setDefault lower d k (some [])).2 = content d (lower k) ∧
      ∃ w, CIDict.abs (AttrsDict.setDefault lower d k (some [])).1 (lower k) = some w := by
  unfold AttrsDict.setDefault CIDict.setDefault
  rw [CIDict.getItem_eq lower d h.inv]
  cases hc : CIDict.abs d (lower k) with
  | some w => exact ⟨h, rfl, by simp [content, hc], w, hc⟩
  | none =>
    have e : content d (lower k) = [] := by simp [content, hc]
    obtain ⟨h1, h2⟩ := good_set d h k [] hk hW (free_key d h k e)
    refine ⟨h1, ?_, e.symm, [], ?_⟩
    · show content (CIDict.setItem lower d k []) = _
      rw [h2, ← e, put_self]
    · show CIDict.abs (CIDict.setItem lower d k []) (lower k) = some []
      rw [CIDict.abs_set lower d k [] h.inv]; simp [FoldMap.put]

theorem read_ok (ds : List Str) : ∀ (st : Desc), Good lower W st.dict → (∀ d ∈ ds, ∀ k v, Structured d k v → W k) →
    Good lower W (ds.foldl (readOne lower) st).dict ∧
    (∀ x l, Says lower x ds l → content (ds.foldl (readOne lower) st).dict x = content st.dict x ++ l) ∧
    (∀ u, u ∈ (ds.foldl (readOne lower) st).unstructured ↔ u ∈ st.unstructured ∨ (u ∈ ds ∧ '=' ∉ u)) := by
  induction ds with
  | nil =>
    intro st h _
    refine ⟨h, ?_, by simp⟩
    intro x l hl; cases hl; simp
  | cons d ds ih =>
    intro st h hW
    simp only [List.foldl_cons]
    cases hs : splitFirst '=' d with
    | none =>
      have hn := (splitFirst_none _ _).1 hs
      have e : (readOne lower st d).dict = st.dict := by simp only [readOne, hs]; split <;> rfl
      have eu : ∀ u, u ∈ (readOne lower st d).unstructured ↔ u ∈ st.unstructured ∨ u = d := by
        intro u; simp only [readOne, hs]
        split
        · rename_i q; constructor
          · exact .inl
          · rintro (q' | rfl)
            · exact q'
            · exact q
        · simp [List.mem_append]
      obtain ⟨i1, i2, i3⟩ := ih (readOne lower st d) (by rw [e]; exact h) (fun d' h' => hW d' (by simp [h']))
      refine ⟨i1, ?_, ?_⟩
      · intro x l hl
        rw [e] at i2
        cases hl with
        | here q _ _ => rw [(structured_iff _ _ _).1 q] at hs; cases hs
        | other q _ _ => rw [(structured_iff _ _ _).1 q] at hs; cases hs
        | unstructured _ hl => exact i2 x l hl
      · intro u; rw [i3, eu]; grind
    | some q =>
      obtain ⟨k, v⟩ := q
      have hst := (structured_iff d k v).2 hs
      have hyes : '=' ∈ d := by rw [hst.1]; simp
      obtain ⟨g1, g2, g3, g4⟩ := setDefault_ok st.dict h k hst.2 (hW d (by simp) k v hst)
      obtain ⟨p1, p2, _⟩ := good_inPlace _ g1 k ((AttrsDict.setDefault lower st.dict k (some [])).2 ++ [v]) g4
      have e : (readOne lower st d).dict = AttrsDict.setInPlace lower (AttrsDict.setDefault lower st.dict k (some [])).1 k
          ((AttrsDict.setDefault lower st.dict k (some [])).2 ++ [v]) := by simp only [readOne, hs]
      have eu : (readOne lower st d).unstructured = st.unstructured := by simp only [readOne, hs]
      rw [← e] at p1 p2
      rw [g2, g3] at p2
      obtain ⟨i1, i2, i3⟩ := ih (readOne lower st d) p1 (fun d' h' => hW d' (by simp [h']))
      refine ⟨i1, ?_, ?_⟩
      · intro x l hl
        cases hl with
        | here q he hl =>
          rw [(structured_iff _ _ _).1 q] at hs; cases hs
          rw [i2 x _ hl, p2, ← he, put_at]; simp
        | other q he hl =>
          rw [(structured_iff _ _ _).1 q] at hs; cases hs
          rw [i2 x _ hl, p2]
          simp only [Content.put, if_neg (fun z => he (Eq.symm z))]
        | unstructured hn _ => exact absurd hyes hn
      · intro u; rw [i3, eu]; grind

/-! writing -/

theorem says_values (x k : Str) (hk : '=' ∉ k) (l : List Str) :
    Says lower x (l.map (fun v => k ++ str "=" ++ v)) (if lower k = x then l else []) := by
  induction l with
  | nil => split <;> exact .nil
  | cons v l ih =>
    by_cases e : lower k = x
    · rw [if_pos e] at ih ⊢; exact .here ⟨rfl, hk⟩ e ih
    · rw [if_neg e] at ih ⊢; exact .other ⟨rfl, hk⟩ e ih

theorem says_plain (x : Str) (l : List Str) (h : ∀ u ∈ l, '=' ∉ u) : Says lower x l [] := by
  induction l with
  | nil => exact .nil
  | cons u l ih => exact .unstructured (h u (by simp)) (ih fun v hv => h v (by simp [hv]))

theorem says_items (x : Str) (data : List (Str × List Str)) (h : ∀ kv ∈ data, '=' ∉ kv.1) :
    Says lower x (data.flatMap (fun kv => kv.2.map (fun v => kv.1 ++ str "=" ++ v))) (data.flatMap (fun kv => if lower kv.1 = x then kv.2 else [])) := by
  induction data with
  | nil => exact .nil
  | cons kv data ih =>
    simp only [List.flatMap_cons]
    exact says_append (says_values x kv.1 (h kv (by simp)) kv.2) (ih fun kv' h' => h kv' (by simp [h']))

theorem flat_single (x : Str) (data : PDict Str (List Str)) (hn : data.keys.Nodup) (k0 : Str) (h0 : lower k0 = x)
    (h : ∀ k l, data.get? k = some l → lower k = x → l ≠ [] → k = k0) :
    data.flatMap (fun kv => if lower kv.1 = x then kv.2 else []) = (data.get? k0).getD [] := by
  induction data with
  | nil => rfl
  | cons kv data ih =>
    obtain ⟨k, l⟩ := kv
    have hn' := List.nodup_cons.1 hn
    have hnot : ∀ k', k' ∈ PDict.keys data → k' ≠ k := fun k' q e => hn'.1 (e ▸ q)
    have ih' := ih hn'.2 (fun k' l' q1 q2 q3 => h k' l' (by
      have : k' ≠ k := hnot k' ((PDict.mem_keys_iff data k').2 ⟨l', q1⟩)
      simp [PDict.get?, Ne.symm this, q1]) q2 q3)
    simp only [List.flatMap_cons, ih']
    by_cases e : k = k0
    · subst e
      have : PDict.get? data k = none := (PDict.get?_none_iff data k).2 hn'.1
      simp [h0, PDict.get?, this]
    · have hl : (if lower k = x then l else []) = [] := by
        split
        · rename_i q
          cases l with
          | nil => rfl
          | cons a b => exact absurd (h k (a :: b) (by simp [PDict.get?]) q (by simp)) e
        · rfl
      simp [hl, PDict.get?, e]

theorem flat_none (x : Str) (data : PDict Str (List Str)) (hn : data.keys.Nodup)
    (h : ∀ k l, data.get? k = some l → lower k = x → l = []) :
    data.flatMap (fun kv => if lower kv.1 = x then kv.2 else []) = [] := by
  rw [List.flatMap_eq_nil_iff]
  rintro ⟨k, l⟩ hm
  split
  · exact h k l ((PDict.mem_iff_get? data hn k l).1 hm) ‹_›
  · rfl

/-- what is written says what the dictionary holds -/
theorem says_render (order : List Str → List Str) (st : Desc) (h : Good lower W st.dict) (ho : ∀ l u, u ∈ order l ↔ u ∈ l)
    (hu : ∀ u ∈ st.unstructured, '=' ∉ u) (x : Str) : Says lower x (render order st) (content st.dict x) := by
  have h1 := says_items (lower := lower) x st.dict.data (fun kv hkv => h.plain kv.1 kv.2 ((PDict.mem_iff_get? _ h.inv.nd _ _).1 hkv))
  have h2 := says_plain (lower := lower) x (order st.unstructured) (fun u q => hu u ((ho _ _).1 q))
  have h3 := says_append h1 h2
  have e : st.dict.data.flatMap (fun kv => if lower kv.1 = x then kv.2 else []) ++ [] = content st.dict x := by
    rw [List.append_nil]
    unfold content CIDict.abs
    cases hk : st.dict.keys.get? x with
    | none =>
      exact flat_none x _ h.inv.nd (fun k l q1 q2 => Classical.byContradiction fun q3 => by
        have := h.cur k l q1 q3; rw [q2, hk] at this; cases this)
    | some k0 =>
      exact flat_single x _ h.inv.nd k0 (h.inv.cas _ _ hk).1 (fun k l q1 q2 q3 => by
        have := h.cur k l q1 q3; rw [q2, hk] at this; cases this; rfl)
  rw [e] at h3
  exact h3

theorem render_plain (order : List Str → List Str) (st : Desc) (ho : ∀ l u, u ∈ order l ↔ u ∈ l) (hu : ∀ u ∈ st.unstructured, '=' ∉ u) (u : Str) :
    (u ∈ render order st ∧ '=' ∉ u) ↔ u ∈ st.unstructured := by
  unfold render
  rw [List.mem_append, ho]
  constructor
  · rintro ⟨h | h, hn⟩
    · exfalso
      simp only [List.mem_flatMap, List.mem_map] at h
      obtain ⟨kv, _, v, _, rfl⟩ := h
      simp at hn
    · exact h
  · intro h; exact ⟨.inr h, hu u h⟩

end DescP
open DescP

/-- every key used: in the description values or in a modification -/
def KeyUsed (ds : List Str) (ops : List DOp) (k : Str) : Prop := (∃ d ∈ ds, ∃ v, Structured d k v) ∨ ∃ op ∈ ops, k ∈ keysOf op

/-- **C52.** What the extension shows of an object's description is what the description values say, under each key in order; the values without
`=` are kept aside. -/
theorem c52_read (lower : Str → Str) (ds : List Str) :
    (∀ k l, Says lower (lower k) ds l → AttrsDict.getAttr lower (readDesc lower ds).dict k = l) ∧
    (∀ u, u ∈ (readDesc lower ds).unstructured ↔ u ∈ ds ∧ '=' ∉ u) := by
  obtain ⟨h1, h2, h3⟩ := read_ok (lower := lower) (W := fun _ => True) ds ⟨CIDict.empty, []⟩ good_empty (fun _ _ _ _ _ => trivial)
  refine ⟨?_, ?_⟩
  · intro k l hl
    have := h2 _ _ hl
    rw [content_empty] at this
    unfold readDesc
    rw [getAttr_content _ h1, this]; rfl
  · intro u; unfold readDesc; rw [h3]; simp

/-- the state after a sequence of modifications -/
def after (lower : Str → Str) (st : Desc) (ops : List DOp) : Desc := ops.foldl (fun st op => { st with dict := apply lower st.dict op }) st

/-- **C52.** After any sequence of modifications the description values written say, under every key, exactly what was asked for, and the
unstructured ones are those there were. Keys hold no `=`, and a key that is replaced is spelled as it was before. -/
theorem c52_history_partial (lower : Str → Str) (order : List Str → List Str) (ho : ∀ l u, u ∈ order l ↔ u ∈ l) (ds : List Str) (ops : List DOp)
    (hk : ∀ op ∈ ops, ∀ k ∈ keysOf op, '=' ∉ k)
    (hr : ∀ attrs, .replace attrs ∈ ops → ∀ a ∈ attrs.keys, ∀ b, KeyUsed ds ops b → lower b = lower a → b = a)
    (c : Content) (hc : ∀ x, Says lower x ds (c x)) :
    (∀ x, Says lower x (render order (after lower (readDesc lower ds) ops)) (ops.foldl (asked lower) c x)) ∧
    (∀ u, (u ∈ render order (after lower (readDesc lower ds) ops) ∧ '=' ∉ u) ↔ (u ∈ ds ∧ '=' ∉ u)) ∧
    (∀ k, AttrsDict.getAttr lower (after lower (readDesc lower ds) ops).dict k = ops.foldl (asked lower) c (lower k)) := by
  obtain ⟨h1, h2, h3⟩ := read_ok (lower := lower) (W := KeyUsed ds ops) ds ⟨CIDict.empty, []⟩ good_empty
    (fun d hd k v hs => .inl ⟨d, hd, v, hs⟩)
  have hu : ∀ u, u ∈ (readDesc lower ds).unstructured ↔ u ∈ ds ∧ '=' ∉ u := (c52_read lower ds).2
  have hcont : content (readDesc lower ds).dict = c := by
    funext x
    have := h2 x _ (hc x)
    rw [content_empty] at this
    simpa [readDesc] using this
  have step : ∀ (l : List DOp), (∀ op ∈ l, op ∈ ops) → ∀ st : Desc, Good lower (KeyUsed ds ops) st.dict →
      Good lower (KeyUsed ds ops) (after lower st l).dict ∧ content (after lower st l).dict = l.foldl (asked lower) (content st.dict) ∧
      (after lower st l).unstructured = st.unstructured := by
    intro l
    induction l with
    | nil => intro _ st h; exact ⟨h, rfl, rfl⟩
    | cons op l ih =>
      intro hl st h
      have hop := hl op (by simp)
      obtain ⟨g1, g2⟩ := apply_ok st.dict h op (fun k q => ⟨hk op hop k q, .inr ⟨op, hop, q⟩⟩) (fun attrs e => by subst e; exact hr attrs hop)
      have := ih (fun o q => hl o (by simp [q])) { st with dict := apply lower st.dict op } g1
      simp only [after, List.foldl_cons] at this ⊢
      rw [← g2]; exact this
  obtain ⟨s1, s2, s3⟩ := step ops (fun _ h => h) (readDesc lower ds) h1
  have hu' : ∀ u ∈ (after lower (readDesc lower ds) ops).unstructured, '=' ∉ u := by
    rw [s3]; intro u q; exact ((hu u).1 q).2
  refine ⟨?_, ?_, ?_⟩
  · intro x
    rw [← hcont, ← s2]
    exact says_render order _ s1 ho hu' x
  · intro u; rw [render_plain order _ ho hu', s3, hu]
  · intro k; rw [getAttr_content _ s1, s2, hcont]

/-- the dictionary after a sequence of modifications -/
theorem DescP.after_ok (lower : Str → Str) (ds : List Str) (ops : List DOp) (hk : ∀ op ∈ ops, ∀ k ∈ keysOf op, '=' ∉ k)
    (hr : ∀ attrs, .replace attrs ∈ ops → ∀ a ∈ attrs.keys, ∀ b, KeyUsed ds ops b → lower b = lower a → b = a)
    (c : Content) (hc : ∀ x, Says lower x ds (c x)) :
    Good lower (KeyUsed ds ops) (after lower (readDesc lower ds) ops).dict ∧ content (after lower (readDesc lower ds) ops).dict = ops.foldl (asked lower) c := by
  obtain ⟨h1, h2, _⟩ := read_ok (lower := lower) (W := KeyUsed ds ops) ds ⟨CIDict.empty, []⟩ good_empty
    (fun d hd k v hs => .inl ⟨d, hd, v, hs⟩)
  have hcont : content (readDesc lower ds).dict = c := by
    funext x
    have := h2 x _ (hc x)
    rw [content_empty] at this
    simpa [readDesc] using this
  have step : ∀ (l : List DOp), (∀ op ∈ l, op ∈ ops) → ∀ st : Desc, Good lower (KeyUsed ds ops) st.dict →
      Good lower (KeyUsed ds ops) (after lower st l).dict ∧ content (after lower st l).dict = l.foldl (asked lower) (content st.dict) := by
    intro l
    induction l with
    | nil => intro _ st h; exact ⟨h, rfl⟩
    | cons op l ih =>
      intro hl st h
      have hop := hl op (by simp)
      obtain ⟨g1, g2⟩ := apply_ok st.dict h op (fun k q => ⟨hk op hop k q, .inr ⟨op, hop, q⟩⟩) (fun attrs e => by subst e; exact hr attrs hop)
      have := ih (fun o q => hl o (by simp [q])) { st with dict := apply lower st.dict op } g1
      simp only [after, List.foldl_cons] at this ⊢
      rw [← g2]; exact this
  obtain ⟨s1, s2⟩ := step ops (fun _ h => h) (readDesc lower ds) h1
  exact ⟨s1, by rw [s2, hcont]⟩

/-- **C52 (looking up).** After any sequence of modifications, under the conditions of `c52_history_partial`: a key is in the extension exactly if something is said under it, in any casing; indexing gives exactly that, and for
a key under which nothing is said the empty list or `KeyError`; iterating yields a spelling of every key under which something is said, and none that the description or a modification has not used. -/
theorem c52_lookup_partial (lower : Str → Str) (ds : List Str) (ops : List DOp) (hk : ∀ op ∈ ops, ∀ k ∈ keysOf op, '=' ∉ k)
    (hr : ∀ attrs, .replace attrs ∈ ops → ∀ a ∈ attrs.keys, ∀ b, KeyUsed ds ops b → lower b = lower a → b = a)
    (c : Content) (hc : ∀ x, Says lower x ds (c x)) :
    let st := after lower (readDesc lower ds) ops
    let said := ops.foldl (asked lower) c
    (∀ k, (st.has lower k = true ↔ said (lower k) ≠ []) ∧ (said (lower k) ≠ [] → st.item lower k = .ok (said (lower k))) ∧
      (said (lower k) = [] → st.item lower k = .ok [] ∨ st.item lower k = .error .keyError)) ∧
    (∀ x, said x ≠ [] → ∃ k ∈ st.iter, lower k = x) ∧ (∀ k ∈ st.iter, KeyUsed ds ops k) := by
  obtain ⟨g, hcont⟩ := DescP.after_ok lower ds ops hk hr c hc
  intro st said
  have hsaid : ∀ x, said x = (CIDict.abs st.dict x).getD [] := fun x => (congrFun hcont x).symm
  refine ⟨fun k => ⟨?_, ?_, ?_⟩, ?_, ?_⟩
  · show AttrsDict.has lower st.dict k = true ↔ _
    rw [has_content st.dict g k, hcont]
  · intro h
    rw [hsaid] at h ⊢
    show CIDict.getItem lower st.dict k = _
    rw [CIDict.getItem_eq lower _ g.inv k]
    cases hx : CIDict.abs st.dict (lower k) with
    | none => rw [hx] at h; exact absurd rfl h
    | some w => rfl
  · intro h
    rw [hsaid] at h
    show CIDict.getItem lower st.dict k = _ ∨ CIDict.getItem lower st.dict k = _
    rw [CIDict.getItem_eq lower _ g.inv k]
    cases hx : CIDict.abs st.dict (lower k) with
    | none => exact .inr rfl
    | some w => rw [hx] at h; exact .inl (by rw [show w = [] from h])
  · intro x h
    rw [hsaid] at h
    cases hx : CIDict.abs st.dict x with
    | none => rw [hx] at h; exact absurd rfl h
    | some w =>
      unfold CIDict.abs at hx
      cases hkk : st.dict.keys.get? x with
      | none => rw [hkk] at hx; cases hx
      | some k =>
        refine ⟨k, ?_, (g.inv.cas _ _ hkk).1⟩
        rw [hkk] at hx
        exact (PDict.mem_keys_iff _ _).2 ⟨w, hx⟩
  · intro k hkin
    obtain ⟨l, hl⟩ := (PDict.mem_keys_iff _ _).1 hkin
    exact g.from_ _ l hl

/-- **C52.** Re-reading the description just written shows what the extension shows. -/
theorem c52_reread (lower : Str → Str) (order : List Str → List Str) (ho : ∀ l u, u ∈ order l ↔ u ∈ l) (ds : List Str) (ops : List DOp)
    (hk : ∀ op ∈ ops, ∀ k ∈ keysOf op, '=' ∉ k)
    (hr : ∀ attrs, .replace attrs ∈ ops → ∀ a ∈ attrs.keys, ∀ b, KeyUsed ds ops b → lower b = lower a → b = a) (k : Str) :
    AttrsDict.getAttr lower (readDesc lower (render order (after lower (readDesc lower ds) ops))).dict k =
      AttrsDict.getAttr lower (after lower (readDesc lower ds) ops).dict k := by
  have hc : ∀ x, Says lower x ds (Classical.choose (says_total (lower := lower) x ds)) := fun x => Classical.choose_spec (says_total (lower := lower) x ds)
  obtain ⟨h1, _, h3⟩ := c52_history_partial lower order ho ds ops hk hr _ hc
  rw [(c52_read lower _).1 k _ (h1 (lower k)), h3]

/-! what is asked for, as sets -/

theorem mem_appendNew (vs : List Str) : ∀ (l : List Str) (v : Str), v ∈ appendNew l vs ↔ v ∈ l ∨ v ∈ vs := by
  induction vs with
  | nil => simp [appendNew]
  | cons w vs ih =>
    intro l v
    simp only [appendNew, ih]
    split <;> grind

theorem nodup_removeEach (vs : List Str) : ∀ (l : List Str), l.Nodup → (removeEach l vs).Nodup ∧ ∀ v, v ∈ removeEach l vs ↔ v ∈ l ∧ v ∉ vs := by
  induction vs with
  | nil => intro l h; exact ⟨h, by simp [removeEach]⟩
  | cons w vs ih =>
    intro l h
    obtain ⟨h1, h2⟩ := ih (l.erase w) (h.erase w)
    refine ⟨h1, fun v => ?_⟩
    rw [removeEach, h2, h.mem_erase_iff]
    grind

/-- **C52.** Adding: under each key what was there and what was given. -/
theorem c52_add_means (lower : Str → Str) (c : Content) (attrs : PDict Str (List Str)) (x v : Str) :
    v ∈ asked lower c (.add attrs) x ↔ v ∈ c x ∨ ∃ kv ∈ attrs, lower kv.1 = x ∧ v ∈ kv.2 := by
  simp only [asked]
  induction attrs generalizing c with
  | nil => simp
  | cons kv attrs ih =>
    rw [List.foldl_cons, ih]
    have : v ∈ addItem lower c kv x ↔ v ∈ c x ∨ (lower kv.1 = x ∧ v ∈ kv.2) := by
      unfold addItem Content.put
      by_cases e : x = lower kv.1
      · subst e
        simp only [if_true]
        split
        · rename_i h; simp [h]
        · rw [mem_appendNew]; simp
      · simp [e, Ne.symm e]
    rw [this]
    simp only [List.mem_cons, exists_eq_or_imp]
    grind

/-- **C52.** Replacing: a key given holds the values given, any other what it held (no two keys given are the same up to case). -/
theorem c52_replace_means (lower : Str → Str) (c : Content) (attrs : PDict Str (List Str)) (hn : (attrs.map (fun kv => lower kv.1)).Nodup) (x : Str) :
    (∀ kv ∈ attrs, lower kv.1 = x → asked lower c (.replace attrs) x = kv.2) ∧
    ((∀ kv ∈ attrs, lower kv.1 ≠ x) → asked lower c (.replace attrs) x = c x) := by
  simp only [asked]
  induction attrs generalizing c with
  | nil => simp
  | cons kv attrs ih =>
    rw [List.foldl_cons]
    have hn' := List.nodup_cons.1 hn
    obtain ⟨i1, i2⟩ := ih (replaceItem lower c kv) hn'.2
    refine ⟨?_, ?_⟩
    · intro kv' hkv' e
      rcases List.mem_cons.1 hkv' with rfl | h
      · rw [i2]
        · simp [replaceItem, Content.put, e]
        · intro k hk q
          exact hn'.1 (List.mem_map.2 ⟨k, hk, q.trans e.symm⟩)
      · exact i1 kv' h e
    · intro h
      rw [i2 (fun k hk => h k (by simp [hk]))]
      simp [replaceItem, Content.put, Ne.symm (h kv (by simp))]

/-- **C52.** Deleting: a key given without values holds nothing any more, a key given with values what it held but those; any other what it held. -/
theorem c52_delete_means (lower : Str → Str) (c : Content) (attrs : PDict Str (List Str)) (hn : (attrs.map (fun kv => lower kv.1)).Nodup) (x : Str)
    (hx : (c x).Nodup) :
    (∀ kv ∈ attrs, lower kv.1 = x → kv.2 = [] → asked lower c (.delete attrs) x = []) ∧
    (∀ kv ∈ attrs, lower kv.1 = x → kv.2 ≠ [] → ∀ v, v ∈ asked lower c (.delete attrs) x ↔ v ∈ c x ∧ v ∉ kv.2) ∧
    ((∀ kv ∈ attrs, lower kv.1 ≠ x) → asked lower c (.delete attrs) x = c x) := by
  simp only [asked]
  have other : ∀ (attrs : PDict Str (List Str)) (c : Content), (∀ kv ∈ attrs, lower kv.1 ≠ x) → attrs.foldl (deleteItem lower) c x = c x := by
    intro attrs
    induction attrs with
    | nil => intros; rfl
    | cons kv attrs ih =>
      intro c h
      rw [List.foldl_cons, ih _ (fun k hk => h k (by simp [hk]))]
      simp [deleteItem, Content.put, Ne.symm (h kv (by simp))]
  have one : ∀ (attrs : PDict Str (List Str)) (c' : Content), c' x = c x → (attrs.map (fun kv => lower kv.1)).Nodup → ∀ kv ∈ attrs, lower kv.1 = x →
      attrs.foldl (deleteItem lower) c' x = if kv.2 = [] then [] else removeEach (c x) kv.2 := by
    intro attrs
    induction attrs with
    | nil => intro _ _ _ kv h; cases h
    | cons k attrs ih =>
      intro c' hc' hn kv hkv e
      have hn' := List.nodup_cons.1 hn
      rw [List.foldl_cons]
      rcases List.mem_cons.1 hkv with rfl | h
      · rw [other]
        · simp [deleteItem, Content.put, e, hc']
        · intro k hk q
          exact hn'.1 (List.mem_map.2 ⟨k, hk, q.trans e.symm⟩)
      · refine ih _ ?_ hn'.2 kv h e
        have : lower k.1 ≠ x := fun q => hn'.1 (List.mem_map.2 ⟨kv, h, e.trans q.symm⟩)
        simp [deleteItem, Content.put, Ne.symm this, hc']
  refine ⟨?_, ?_, other attrs c⟩
  · intro kv h e h0; rw [one attrs c rfl hn kv h e, if_pos h0]
  · intro kv h e h0 v
    rw [one attrs c rfl hn kv h e, if_neg h0]
    exact (nodup_removeEach kv.2 (c x) hx).2 v

/-! what is sent -/

/-- **C52.** A modification on a connected object sends one request that sets the description to the values written (when there are any), and
then the object shows them; nothing is sent before the connection has been checked and the validators asked. -/
theorem c52_sent (lower : Str → Str) (typeOf : TypeOf Str) (env : ObjEnv Str) (server : ModRequest Str → Except Err Unit)
    (order : List Str → List Str) (st : Desc) (obj : AttrsDict Str) (hobj : CIDict.Inv lower obj) (op : DOp)
    (hne : render order { st with dict := apply lower st.dict op } ≠ [])
    (hb : env.unbound = false) (hctrl : env.ctrls = .ok ())
    (hval : runValidation env.validators (env.dn, [⟨.replace, descAttr, .list (render order { st with dict := apply lower st.dict op })⟩], some obj) = .ok ()) :
    let values := render order { st with dict := apply lower st.dict op }
    let r := modifyDesc lower typeOf true env server order st obj op
    r.2.2.sent = [⟨env.dn, [⟨.replace, descAttr, values⟩]⟩] ∧
    r.2.2.result = server ⟨env.dn, [⟨.replace, descAttr, values⟩]⟩ ∧
    (server ⟨env.dn, [⟨.replace, descAttr, values⟩]⟩ = .ok () → AttrsDict.getAttr lower r.2.1 descAttr = values) := by
  intro values r
  have hr : r = modifyDesc lower typeOf true env server order st obj op := rfl
  unfold modifyDesc at hr
  simp only [if_true] at hr
  have hv : ∃ a b, values = a :: b := by
    cases h : values with
    | nil => exact absurd h hne
    | cons a b => exact ⟨a, b, rfl⟩
  have hml : modlist .replace [(descAttr, RawVals.vals (Vals.list values))] = .ok [⟨.replace, descAttr, .list values⟩] := by
    obtain ⟨a, b, e⟩ := hv
    rw [e]; rfl
  have hlm : ldapModify env.unbound env.validators env.opts env.ctrls server env.dn [⟨.replace, descAttr, .list values⟩] (some obj) =
      ⟨[⟨env.dn, [⟨.replace, descAttr, values⟩]⟩], [⟨.replace, descAttr, .list values⟩], server ⟨env.dn, [⟨.replace, descAttr, values⟩]⟩⟩ := by
    obtain ⟨a, b, e⟩ := hv
    have hval' : runValidation env.validators (env.dn, [⟨.replace, descAttr, .list (a :: b)⟩], some obj) = .ok () := by
      rw [← e]; exact hval
    simp [ldapModify, hb, hctrl, e, hval', buildChanges]
  have hr' : r.2 = env.replaceAttrs lower typeOf server obj [(descAttr, .list values)] := by rw [hr]
  rw [hr']
  simp only [ObjEnv.replaceAttrs, List.map_cons, List.map_nil, hml, ObjEnv.modify, objModify, hlm]
  cases hs : server ⟨env.dn, [⟨.replace, descAttr, values⟩]⟩ with
  | error e => simp
  | ok u =>
    obtain ⟨a, b, e⟩ := hv
    simp only [localModify, localModify1, e]
    refine ⟨trivial, trivial, fun _ => ?_⟩
    rw [getAttr_abs lower _ (CIDict.inv_set lower obj _ _ hobj), CIDict.abs_set lower obj _ _ hobj]
    simp [FoldMap.put]

/-- **C52.** Without a connection nothing happens and `RuntimeError` is raised. -/
theorem c52_not_connected (lower : Str → Str) (typeOf : TypeOf Str) (env : ObjEnv Str) (server : ModRequest Str → Except Err Unit)
    (order : List Str → List Str) (st : Desc) (obj : AttrsDict Str) (op : DOp) :
    modifyDesc lower typeOf false env server order st obj op = (st, obj, ⟨[], [], .error .runtimeError⟩) := rfl

/-! ### findings -/

/-- **C52, finding.** Removing the last description under the default options sends nothing: the server keeps it, while the object no longer
shows it. -/
theorem c52_last_kept (lower : Str → Str) (typeOf : TypeOf Str) (env : ObjEnv Str) (server : ModRequest Str → Except Err Unit)
    (order : List Str → List Str) (st : Desc) (obj : AttrsDict Str) (hobj : CIDict.Inv lower obj) (op : DOp)
    (h0 : render order { st with dict := apply lower st.dict op } = []) (hopts : env.opts = ⟨false, true⟩)
    (hp : ∃ l, CIDict.abs obj (lower descAttr) = some l)
    (hb : env.unbound = false)
    (hval : runValidation env.validators (env.dn, [⟨.replace, descAttr, .list []⟩], some obj) = .ok ()) :
    let r := modifyDesc lower typeOf true env server order st obj op
    r.2.2.sent = [] ∧ r.2.2.result = .ok () ∧ AttrsDict.getAttr lower r.2.1 descAttr = [] := by
  intro r
  obtain ⟨l, hl⟩ := hp
  obtain ⟨d', h1, h2, h3⟩ := CIDict.del_some lower obj hobj descAttr l hl
  have hr' : r.2 = env.replaceAttrs lower typeOf server obj [(descAttr, .list [])] := by
    show (modifyDesc lower typeOf true env server order st obj op).2 = _
    simp only [modifyDesc, if_true, h0]
  have hml : modlist .replace [(descAttr, RawVals.vals (Vals.list ([] : List Str)))] = .ok [⟨.replace, descAttr, .list []⟩] := rfl
  rw [hr']
  simp only [ObjEnv.replaceAttrs, List.map_cons, List.map_nil, hml, ObjEnv.modify, objModify]
  have hlm : ldapModify env.unbound env.validators env.opts env.ctrls server env.dn [⟨.replace, descAttr, .list []⟩] (some obj) =
      ⟨[], [⟨.replace, descAttr, .list []⟩], .ok ()⟩ := by
    simp [ldapModify, hb, hopts, hval, buildChanges]
  simp only [hlm, localModify, localModify1, h1]
  refine ⟨trivial, trivial, ?_⟩
  rw [getAttr_abs lower _ h2, h3]; simp [FoldMap.drop]

/-- letters folded for the examples -/
def fold (s : Str) : Str := s.map Char.toLower

/-- the documented example (descattrs.py:10-36) -/
example : let st := after fold (readDesc fold [str "plain", str "Foo=one"]) [.add [(str "foo", [str "two"])], .delete [(str "FOO", [str "one"])]]
    st.has fold (str "FOO") = true ∧ st.item fold (str "foo") = .ok [str "two"] ∧ st.iter = [str "Foo"] ∧ st.has fold (str "plain") = false ∧ st.item fold (str "plain") = .error .keyError := by
  decide

example : render id (after fold (readDesc fold [str "plain"]) [.add [(str "foo", [str "one", str "two"])],
      .replace [(str "foo", [str "one", str "two", str "three"])], .delete [(str "foo", [str "two"])]]) =
    [str "foo=one", str "foo=three", str "plain"] := by decide +kernel

/-- the hypotheses of `c52_reread` are met by the documented example -/
example (k : Str) : AttrsDict.getAttr fold (readDesc fold (render id (after fold (readDesc fold [str "plain"])
      [.add [(str "foo", [str "one", str "two"])], .replace [(str "foo", [str "three"])]]))).dict k =
    AttrsDict.getAttr fold (after fold (readDesc fold [str "plain"])
      [.add [(str "foo", [str "one", str "two"])], .replace [(str "foo", [str "three"])]]).dict k := by
  refine c52_reread fold id (fun _ _ => Iff.rfl) _ _ ?_ ?_ k
  · decide
  · intro attrs h a ha b hb _
    have e : attrs = [(str "foo", [str "three"])] := by simpa using h
    subst e
    have ha : a = str "foo" := by simpa [PDict.keys] using ha
    subst ha
    rcases hb with ⟨d, hd, v, hs⟩ | ⟨op, ho, hb⟩
    · have : d = str "plain" := by simpa using hd
      subst this
      exact absurd hs.1 (by intro e; have : '=' ∈ str "plain" := by rw [e]; simp
                            revert this; decide)
    · simp only [List.mem_cons, List.not_mem_nil, or_false] at ho
      rcases ho with rfl | rfl <;> simpa [keysOf, PDict.keys] using hb

/-- **C52, finding.** Replacing under another spelling of the key keeps the old values in the description, beside the new ones. -/
theorem c52_respelled : render id (after fold (readDesc fold [str "foo=old"]) [.replace [(str "FOO", [str "new"])]]) = [str "foo=old", str "FOO=new"] ∧
    AttrsDict.getAttr fold (after fold (readDesc fold [str "foo=old"]) [.replace [(str "FOO", [str "new"])]]).dict (str "foo") = [str "new"] := by
  refine ⟨?_, ?_⟩ <;> decide +kernel

/-- **C52, finding.** A key with `=` is read back as another key. -/
theorem c52_key_with_equals : render id (after fold (readDesc fold []) [.add [(str "a=b", [str "c"])]]) = [str "a=b=c"] ∧
    AttrsDict.getAttr fold (readDesc fold [str "a=b=c"]).dict (str "a") = [str "b=c"] ∧
    AttrsDict.getAttr fold (readDesc fold [str "a=b=c"]).dict (str "a=b") = [] := by
  refine ⟨?_, ?_, ?_⟩ <;> decide +kernel

/-- **C52, finding.** When the server refuses a modification the extension still shows it, and sends it again with the next one. -/
theorem c52_refused_kept (lower : Str → Str) (typeOf : TypeOf Str) (env : ObjEnv Str) (server : ModRequest Str → Except Err Unit)
    (order : List Str → List Str) (st : Desc) (obj : AttrsDict Str) (op : DOp) :
    (modifyDesc lower typeOf true env server order st obj op).1.dict = apply lower st.dict op := rfl

end Laurelin.Props
