import Verif.Lemmas.Modify
import Verif.Spec.Server
import Verif.Props.LdapModify
set_option linter.unusedSectionVars false
namespace Laurelin
open Spec
variable {V : Type} [DecidableEq V]

theorem PDict.set_self {K W : Type} [DecidableEq K] (d : PDict K W) (k : K) (w : W) (h : d.get? k = some w) :
    d.set k w = d := by
  induction d with
  | nil => simp at h
  | cons hd t ih =>
    obtain ⟨a, x⟩ := hd
    simp only [PDict.get?] at h
    simp only [PDict.set]
    split
    · rename_i e; simp [e] at h; simp [h]
    · rename_i e; rw [if_neg e] at h; rw [ih h]

/-- on the (folded) attribute names in `P` the client's view equals the server's entry -/
def SyncOn (P : Str → Prop) (d : AttrsDict V) (e : Entry V) : Prop := ∀ x, P x → (CIDict.abs d x).getD [] = e x

/-- matching and acceptability do not depend on the casing of the attribute name -/
structure FoldCompat (lower : Str → Str) (m : Str → V → V → Bool) (G : Str → V → Prop) : Prop where
  mc : ∀ a b, lower a = lower b → m a = m b
  gc : ∀ a b, lower a = lower b → ∀ v, G a v → G b v

def GoodEntry (lower : Str → Str) (G : Str → V → Prop) (e : Entry V) : Prop :=
  ∀ a, ∀ x ∈ e (lower a), G a x

variable (lower : Str → Str) {P : Str → Prop}

theorem getAttr_abs (d : AttrsDict V) (h : CIDict.Inv lower d) (a : Str) :
    AttrsDict.getAttr lower d a = (CIDict.abs d (lower a)).getD [] := by
  simp only [AttrsDict.getAttr, CIDict.get, CIDict.getItem_eq lower d h]
  cases CIDict.abs d (lower a) <;> rfl

theorem sync_getAttr (d : AttrsDict V) (h : CIDict.Inv lower d) (e : Entry V) (hs : SyncOn P d e) (a : Str)
    (hP : P (lower a)) : AttrsDict.getAttr lower d a = e (lower a) := by
  rw [getAttr_abs lower d h, hs _ hP]

theorem sync_set (d : AttrsDict V) (h : CIDict.Inv lower d) (e : Entry V) (hs : SyncOn P d e) (a : Str) (l : List V) :
    CIDict.Inv lower (CIDict.setItem lower d a l) ∧ SyncOn P (CIDict.setItem lower d a l) (e.put lower a l) := by
  refine ⟨CIDict.inv_set lower d a l h, fun x hPx => ?_⟩
  rw [CIDict.abs_set lower d a l h]
  simp only [FoldMap.put, Entry.put]
  by_cases hx : x = lower a
  · simp [hx]
  · simp only [hx, if_false]; exact hs x hPx

theorem setInPlace_eq (d : AttrsDict V) (h : CIDict.Inv lower d) (a : Str) (l : List V)
    (hp : ∃ w, CIDict.abs d (lower a) = some w) :
    ∃ k, lower k = lower a ∧ AttrsDict.setInPlace lower d a l = CIDict.setItem lower d k l := by
  obtain ⟨w, hw⟩ := hp
  simp only [CIDict.abs] at hw
  cases hk : d.keys.get? (lower a) with
  | none => rw [hk] at hw; simp at hw
  | some k =>
    have hc := (h.cas _ _ hk).1
    refine ⟨k, hc, ?_⟩
    simp only [AttrsDict.setInPlace, hk, CIDict.setItem, hc]
    rw [PDict.set_self _ _ _ hk]

theorem sync_setInPlace (d : AttrsDict V) (h : CIDict.Inv lower d) (e : Entry V) (hs : SyncOn P d e) (a : Str)
    (l : List V) (hp : ∃ w, CIDict.abs d (lower a) = some w) :
    CIDict.Inv lower (AttrsDict.setInPlace lower d a l) ∧
    SyncOn P (AttrsDict.setInPlace lower d a l) (e.put lower a l) ∧
    CIDict.abs (AttrsDict.setInPlace lower d a l) (lower a) = some l := by
  obtain ⟨k, hk, he⟩ := setInPlace_eq lower d h a l hp
  rw [he]
  have := sync_set lower d h e hs k l
  refine ⟨this.1, ?_, ?_⟩
  · have h2 : e.put lower k l = e.put lower a l := by funext x; simp [Entry.put, hk]
    rw [← h2]; exact this.2
  · rw [CIDict.abs_set lower d k l h]; simp [FoldMap.put, hk]

theorem sync_del (d : AttrsDict V) (h : CIDict.Inv lower d) (e : Entry V) (hs : SyncOn P d e) (a : Str)
    (hp : ∃ w, CIDict.abs d (lower a) = some w) :
    ∃ d', CIDict.delItem lower d a = .ok d' ∧ CIDict.Inv lower d' ∧ SyncOn P d' (e.put lower a []) := by
  obtain ⟨w, hw⟩ := hp
  obtain ⟨d', h1, h2, h3⟩ := CIDict.del_some lower d h a w hw
  refine ⟨d', h1, h2, fun x hPx => ?_⟩
  rw [h3]
  simp only [FoldMap.drop, Entry.put]
  by_cases hx : x = lower a
  · simp [hx]
  · simp only [hx, if_false]; exact hs x hPx

theorem abs_of_ne_nil (d : AttrsDict V) (e : Entry V) (hs : SyncOn P d e) (x : Str) (hP : P x) (h : e x ≠ []) :
    CIDict.abs d x = some (e x) := by
  have := hs x hP
  cases hc : CIDict.abs d x with
  | none => rw [hc] at this; exact absurd this.symm h
  | some w => rw [hc] at this; exact congrArg some this

theorem eraseIdx_findIdx (p : V → Bool) (l : List V) (i : Nat) (h : l.findIdx? p = some i) :
    l.eraseIdx i = dropFirst p l := by
  induction l generalizing i with
  | nil => simp at h
  | cons x xs ih =>
    rw [List.findIdx?_cons] at h
    simp only [dropFirst]
    by_cases hp : p x = true
    · simp [hp] at h ⊢; subst h; simp
    · simp [hp] at h ⊢
      obtain ⟨j, hj, rfl⟩ := h
      simp [ih j hj]

theorem mem_dropFirst (p : V → Bool) (l : List V) (x : V) (h : x ∈ dropFirst p l) : x ∈ l := by
  induction l with
  | nil => simp [dropFirst] at h
  | cons y ys ih =>
    simp only [dropFirst] at h
    split at h
    · simp [h]
    · rcases List.mem_cons.1 h with rfl | h
      · simp
      · simp [ih h]

theorem put_put (e : Entry V) (a : Str) (l l' : List V) : (e.put lower a l).put lower a l' = e.put lower a l' := by
  funext x; simp only [Entry.put]; split <;> rfl

theorem put_self (e : Entry V) (a : Str) : e.put lower a (e (lower a)) = e := by
  funext x; simp only [Entry.put]; split <;> simp_all

theorem localDeleteVals_sim {typeOf : TypeOf V} {m : Str → V → V → Bool} {G : Str → V → Prop}
    (hD : Decides typeOf m G) (attr : Str) (hP : P (lower attr)) (vs : List V) (d : AttrsDict V)
    (e : Entry V) (l' : List V) (h : CIDict.Inv lower d) (hs : SyncOn P d e)
    (hg : ∀ x ∈ e (lower attr), G attr x) (hgv : ∀ v ∈ vs, G attr v)
    (hsrv : srvDelete (m attr) (e (lower attr)) vs = .ok l') :
    ∃ d', localDeleteVals lower typeOf attr d vs = (d', .ok ()) ∧ CIDict.Inv lower d' ∧
      SyncOn P d' (e.put lower attr l') ∧ (∀ x ∈ l', x ∈ e (lower attr)) := by
  induction vs generalizing d e with
  | nil =>
    simp only [srvDelete, Except.ok.injEq] at hsrv
    subst hsrv
    exact ⟨d, rfl, h, by rw [put_self]; exact hs, fun x hx => hx⟩
  | cons v vs ih =>
    simp only [srvDelete] at hsrv
    split at hsrv
    · rename_i hany
      have hne : e (lower attr) ≠ [] := by intro h0; rw [h0] at hany; simp at hany
      have habs := abs_of_ne_nil d e hs (lower attr) hP hne
      have hget : CIDict.getItem lower d attr = .ok (e (lower attr)) := by
        rw [CIDict.getItem_eq lower d h, habs]
      have hidx := hD attr (e (lower attr)) v hg (hgv v (by simp))
      have hsome : (List.findIdx? (fun x => m attr x v) (e (lower attr))).isSome := by
        rw [List.findIdx?_isSome]; exact hany
      obtain ⟨i, hi⟩ := Option.isSome_iff_exists.1 hsome
      rw [hi] at hidx
      have hrem : AttrValueList.remove typeOf attr (e (lower attr)) v =
          .ok (dropFirst (fun x => m attr x v) (e (lower attr))) := by
        simp only [AttrValueList.remove, hidx, eraseIdx_findIdx _ _ _ hi]
      have hin := sync_setInPlace lower d h e hs attr
        (dropFirst (fun x => m attr x v) (e (lower attr))) ⟨_, habs⟩
      have hstep : ∃ d1, deleteAttrValue lower typeOf d attr v = .ok d1 ∧ CIDict.Inv lower d1 ∧
          SyncOn P d1 (e.put lower attr (dropFirst (fun x => m attr x v) (e (lower attr)))) := by
        simp only [deleteAttrValue, hget, hrem]
        by_cases hemp : (dropFirst (fun x => m attr x v) (e (lower attr))).isEmpty = true
        · rw [if_pos hemp]
          obtain ⟨d', h1, h2, h3⟩ := sync_del lower _ hin.1 _ hin.2.1 attr ⟨_, hin.2.2⟩
          refine ⟨d', h1, h2, ?_⟩
          rw [put_put] at h3
          rw [List.isEmpty_iff] at hemp
          rw [hemp]; exact h3
        · rw [if_neg hemp]
          exact ⟨_, rfl, hin.1, hin.2.1⟩
      obtain ⟨d1, h1, h2, h3⟩ := hstep
      have hput : (e.put lower attr (dropFirst (fun x => m attr x v) (e (lower attr)))) (lower attr)
          = dropFirst (fun x => m attr x v) (e (lower attr)) := by simp [Entry.put]
      obtain ⟨d', h4, h5, h6, h7⟩ := ih d1 _ h2 h3
        (by rw [hput]; intro x hx; exact hg x (mem_dropFirst _ _ _ hx))
        (fun v hv => hgv v (by simp [hv])) (by rw [hput]; exact hsrv)
      refine ⟨d', ?_, h5, ?_, ?_⟩
      · simp only [localDeleteVals, h1]; exact h4
      · rw [put_put] at h6; exact h6
      · intro x hx
        have := h7 x hx
        rw [hput] at this
        exact mem_dropFirst _ _ _ this
    · simp at hsrv

theorem srvAdd_eq (m : V → V → Bool) (cur vs l' : List V) (h : srvAdd m cur vs = .ok l') : l' = cur ++ vs := by
  induction vs generalizing cur with
  | nil => simp [srvAdd] at h; simp [h]
  | cons v vs ih =>
    simp only [srvAdd] at h
    split at h
    · simp at h
    · rw [ih _ h]; simp

theorem goodEntry_put {G : Str → V → Prop} {m : Str → V → V → Bool} (hf : FoldCompat lower m G) (e : Entry V)
    (hg : GoodEntry lower G e) (a : Str) (l : List V) (hl : ∀ x ∈ l, G a x) : GoodEntry lower G (e.put lower a l) := by
  intro b x hx
  simp only [Entry.put] at hx
  split at hx
  · rename_i hb
    exact hf.gc a b hb.symm x (hl x hx)
  · exact hg b x hx

/-- one Mod that appears on the wire as `c`, accepted by the server -/
theorem localModify1_sim {typeOf : TypeOf V} {m : Str → V → V → Bool} {G : Str → V → Prop}
    (hD : Decides typeOf m G) (hf : FoldCompat lower m G) (d : AttrsDict V) (e e' : Entry V)
    (h : CIDict.Inv lower d) (hs : SyncOn P d e) (hg : GoodEntry lower G e) (md : Mod V) (l : List V)
    (hPr : P (lower md.attr) ∨ (md.op = .replace ∧ l ≠ []))
    (hl : md.vals = .list l ∨ (md.op ≠ .add ∧ md.vals = .deleteAll ∧ l = []))
    (hgv : ∀ v ∈ l, G md.attr v)
    (hadd : md.op = .add → l ≠ [])
    (hrep : md.op = .replace → l = [] → e (lower md.attr) ≠ [])
    (hsrv : srvChange lower m e ⟨md.op, md.attr, l⟩ = .ok e') :
    ∃ d', localModify1 lower typeOf d md = (d', .ok ()) ∧ CIDict.Inv lower d' ∧
      SyncOn (fun x => P x ∨ x = lower md.attr) d' e' ∧ GoodEntry lower G e' := by
  obtain ⟨op, attr, vals⟩ := md
  simp only at *
  have ext : ∀ {d' e'}, P (lower attr) → SyncOn P d' e' → SyncOn (V := V) (fun x => P x ∨ x = lower attr) d' e' := by
    intro d' e' hP h x hx
    rcases hx with hx | rfl
    · exact h x hx
    · exact h _ hP
  have hs' : ∀ l, SyncOn (V := V) (fun x => P x ∨ x = lower attr) (CIDict.setItem lower d attr l) (e.put lower attr l) := by
    intro l x hx
    rw [CIDict.abs_set lower d attr l h]
    simp only [FoldMap.put, Entry.put]
    by_cases hxx : x = lower attr
    · simp [hxx]
    · simp only [hxx, if_false]
      rcases hx with hx | hx
      · exact hs x hx
      · exact absurd hx hxx
  cases op with
  | add =>
    have hP : P (lower attr) := by rcases hPr with h | h; exact h; simp at h
    have hv : vals = .list l := by rcases hl with h | h <;> simp_all
    subst hv
    simp only [srvChange] at hsrv
    split at hsrv
    · rename_i l' hl'
      simp only [Except.ok.injEq] at hsrv
      have hll := srvAdd_eq _ _ _ _ hl'
      subst hll; subst hsrv
      have hgg : GoodEntry lower G (e.put lower attr (e (lower attr) ++ l)) := by
        apply goodEntry_put lower hf e hg
        intro x hx
        rcases List.mem_append.1 hx with hx | hx
        · exact hg attr x hx
        · exact hgv x hx
      simp only [localModify1]
      by_cases hh : AttrsDict.has lower d attr = true
      · rw [if_pos hh]
        have hne := (AttrsDict.has_iff lower d attr).1 hh
        rw [sync_getAttr lower d h e hs _ hP] at hne ⊢
        have := sync_setInPlace lower d h e hs attr (e (lower attr) ++ l) ⟨_, abs_of_ne_nil d e hs _ hP hne⟩
        exact ⟨_, rfl, this.1, ext hP this.2.1, hgg⟩
      · rw [if_neg hh]
        have he := (AttrsDict.has_false_iff lower d attr).1 (by simpa using hh)
        rw [sync_getAttr lower d h e hs _ hP] at he
        rw [he, List.nil_append] at hgg ⊢
        have := sync_set lower d h e hs attr l
        exact ⟨_, rfl, this.1, ext hP this.2, hgg⟩
    · simp at hsrv
  | replace =>
    simp only [srvChange, Except.ok.injEq] at hsrv
    subst hsrv
    have hgg : GoodEntry lower G (e.put lower attr l) := goodEntry_put lower hf e hg attr l hgv
    cases l with
    | nil =>
      have hP : P (lower attr) := by rcases hPr with h | h; exact h; simp at h
      have hne := hrep rfl rfl
      obtain ⟨d', h1, h2, h3⟩ := sync_del lower d h e hs attr ⟨_, abs_of_ne_nil d e hs _ hP hne⟩
      refine ⟨d', ?_, h2, ext hP h3, hgg⟩
      rcases hl with rfl | ⟨_, rfl, _⟩ <;> simp [localModify1, h1]
    | cons x xs =>
      have hv : vals = .list (x :: xs) := by rcases hl with h | h <;> simp_all
      subst hv
      exact ⟨_, rfl, CIDict.inv_set lower d attr _ h, hs' _, hgg⟩
  | delete =>
    have hP : P (lower attr) := by rcases hPr with h | h; exact h; simp at h
    cases l with
    | nil =>
      simp only [srvChange, if_true] at hsrv
      split at hsrv
      · simp at hsrv
      · rename_i hne
        simp only [Except.ok.injEq] at hsrv
        subst hsrv
        have hh : AttrsDict.has lower d attr = true := by
          rw [AttrsDict.has_iff, sync_getAttr lower d h e hs _ hP]; exact hne
        obtain ⟨d', h1, h2, h3⟩ := sync_del lower d h e hs attr ⟨_, abs_of_ne_nil d e hs _ hP hne⟩
        refine ⟨d', ?_, h2, ext hP h3, goodEntry_put lower hf e hg attr [] (by simp)⟩
        rcases hl with rfl | ⟨_, rfl, _⟩ <;> simp [localModify1, hh, h1]
    | cons x xs =>
      have hv : vals = .list (x :: xs) := by rcases hl with h | h <;> simp_all
      subst hv
      simp only [srvChange, List.cons_ne_nil, if_false] at hsrv
      split at hsrv
      · rename_i l' hl'
        simp only [Except.ok.injEq] at hsrv
        subst hsrv
        obtain ⟨d', h1, h2, h3, h4⟩ := localDeleteVals_sim lower hD attr hP (x :: xs) d e l' h hs (hg attr) hgv hl'
        have hne : e (lower attr) ≠ [] := by
          intro h0; rw [h0] at hl'; simp [srvDelete] at hl'
        have hh : AttrsDict.has lower d attr = true := by
          rw [AttrsDict.has_iff, sync_getAttr lower d h e hs _ hP]; exact hne
        refine ⟨d', ?_, h2, ext hP h3, goodEntry_put lower hf e hg attr l' (fun x hx => hg attr x (h4 x hx))⟩
        simp [localModify1, hh, h1]
      · simp at hsrv

/-- `_local_modify` touches nothing but the attributes named by the Mods -/
theorem delItem_frame (d d' : AttrsDict V) (h : CIDict.Inv lower d) (a : Str) (hd : CIDict.delItem lower d a = .ok d') :
    CIDict.Inv lower d' ∧ ∀ x, x ≠ lower a → CIDict.abs d' x = CIDict.abs d x := by
  cases hk : CIDict.abs d (lower a) with
  | none => rw [CIDict.del_none lower d h a hk] at hd; simp at hd
  | some v =>
    obtain ⟨d1, h1, h2, h3⟩ := CIDict.del_some lower d h a v hk
    rw [hd] at h1
    simp only [Except.ok.injEq] at h1
    subst h1
    refine ⟨h2, fun x hx => ?_⟩
    rw [h3]; simp [FoldMap.drop, hx]

theorem setInPlace_frame (d : AttrsDict V) (h : CIDict.Inv lower d) (a : Str) (l : List V) :
    CIDict.Inv lower (AttrsDict.setInPlace lower d a l) ∧
    ∀ x, x ≠ lower a → CIDict.abs (AttrsDict.setInPlace lower d a l) x = CIDict.abs d x := by
  cases hk : CIDict.abs d (lower a) with
  | none =>
    have : d.keys.get? (lower a) = none := by
      simp only [CIDict.abs] at hk
      cases hg : d.keys.get? (lower a) with
      | none => rfl
      | some k =>
        obtain ⟨_, v, hv⟩ := h.cas _ _ hg
        rw [hg] at hk; simp [hv] at hk
    simp only [AttrsDict.setInPlace, this]
    exact ⟨h, fun _ _ => trivial⟩
  | some v =>
    obtain ⟨k, hk1, he⟩ := setInPlace_eq lower d h a l ⟨v, hk⟩
    rw [he]
    refine ⟨CIDict.inv_set lower d k l h, fun x hx => ?_⟩
    rw [CIDict.abs_set lower d k l h]
    simp [FoldMap.put, hk1, hx]

theorem localDeleteVals_frame (typeOf : TypeOf V) (a : Str) (vs : List V) (d : AttrsDict V) (h : CIDict.Inv lower d) :
    CIDict.Inv lower (localDeleteVals lower typeOf a d vs).1 ∧
    ∀ x, x ≠ lower a → CIDict.abs (localDeleteVals lower typeOf a d vs).1 x = CIDict.abs d x := by
  induction vs generalizing d with
  | nil => exact ⟨h, fun _ _ => rfl⟩
  | cons v vs ih =>
    simp only [localDeleteVals]
    split
    · rename_i d' hd
      have : CIDict.Inv lower d' ∧ ∀ x, x ≠ lower a → CIDict.abs d' x = CIDict.abs d x := by
        simp only [deleteAttrValue] at hd
        split at hd
        · simp at hd
        · split at hd
          · simp at hd
          · rename_i l' _
            have hf := setInPlace_frame lower d h a l'
            split at hd
            · have := delItem_frame lower _ _ hf.1 a hd
              exact ⟨this.1, fun x hx => (this.2 x hx).trans (hf.2 x hx)⟩
            · simp only [Except.ok.injEq] at hd; subst hd; exact hf
      have h2 := ih d' this.1
      exact ⟨h2.1, fun x hx => (h2.2 x hx).trans (this.2 x hx)⟩
    · exact ih d h
    · exact ⟨h, fun _ _ => rfl⟩

theorem localModify1_frame (typeOf : TypeOf V) (md : Mod V) (d : AttrsDict V) (h : CIDict.Inv lower d) :
    CIDict.Inv lower (localModify1 lower typeOf d md).1 ∧
    ∀ x, x ≠ lower md.attr → CIDict.abs (localModify1 lower typeOf d md).1 x = CIDict.abs d x := by
  have hset : ∀ l, CIDict.Inv lower (CIDict.setItem lower d md.attr l) ∧
      ∀ x, x ≠ lower md.attr → CIDict.abs (CIDict.setItem lower d md.attr l) x = CIDict.abs d x := by
    intro l
    refine ⟨CIDict.inv_set lower d _ l h, fun x hx => ?_⟩
    rw [CIDict.abs_set lower d _ l h]; simp [FoldMap.put, hx]
  have hdel : CIDict.Inv lower (match CIDict.delItem lower d md.attr with
        | .ok d' => (d', Except.ok ()) | .error e => (d, .error e) : AttrsDict V × Except Err Unit).1 ∧
      ∀ x, x ≠ lower md.attr → CIDict.abs (match CIDict.delItem lower d md.attr with
        | .ok d' => (d', Except.ok ()) | .error e => (d, .error e) : AttrsDict V × Except Err Unit).1 x = CIDict.abs d x := by
    split
    · rename_i d' hd; exact delItem_frame lower d d' h _ hd
    · exact ⟨h, fun _ _ => rfl⟩
  simp only [localModify1]
  split
  · split
    · exact ⟨h, fun _ _ => rfl⟩
    · split
      · exact setInPlace_frame lower d h _ _
      · exact hset _
  · split
    · exact hset _
    · exact hdel
  · split
    · split
      · exact localDeleteVals_frame lower typeOf _ _ d h
      · exact hdel
    · exact ⟨h, fun _ _ => rfl⟩

theorem localModify_frame (typeOf : TypeOf V) (mods : List (Mod V)) (d : AttrsDict V) (h : CIDict.Inv lower d) :
    CIDict.Inv lower (localModify lower typeOf d mods).1 ∧
    ∀ x, (∀ md ∈ mods, x ≠ lower md.attr) → CIDict.abs (localModify lower typeOf d mods).1 x = CIDict.abs d x := by
  induction mods generalizing d with
  | nil => exact ⟨h, fun _ _ => rfl⟩
  | cons md rest ih =>
    have h1 := localModify1_frame lower typeOf md d h
    simp only [localModify]
    split
    · rename_i d' u heq
      rw [heq] at h1
      have h2 := ih d' h1.1
      exact ⟨h2.1, fun x hx => (h2.2 x (fun m hm => hx m (by simp [hm]))).trans (h1.2 x (hx md (by simp)))⟩
    · rename_i d' e heq
      rw [heq] at h1
      exact ⟨h1.1, fun x hx => h1.2 x (hx md (by simp))⟩

/-- the server's answer to reading the attributes `attrs` of the entry: those it has, with all their values -/
structure FetchOf (e : Entry V) (attrs : List Str) (got : PDict Str (List V)) : Prop where
  sound : ∀ kv ∈ got, kv.2 = e (lower kv.1)
  complete : ∀ a ∈ attrs, e (lower a) ≠ [] → ∃ kv ∈ got, lower kv.1 = lower a

theorem update_abs (got : PDict Str (List V)) (d : AttrsDict V) (h : CIDict.Inv lower d) (e : Entry V)
    (hs : ∀ kv ∈ got, kv.2 = e (lower kv.1)) :
    CIDict.Inv lower (CIDict.update lower d got) ∧ ∀ x,
      ((∃ kv ∈ got, lower kv.1 = x) → CIDict.abs (CIDict.update lower d got) x = some (e x)) ∧
      ((¬ ∃ kv ∈ got, lower kv.1 = x) → CIDict.abs (CIDict.update lower d got) x = CIDict.abs d x) := by
  induction got generalizing d with
  | nil => exact ⟨h, fun x => ⟨by simp, fun _ => rfl⟩⟩
  | cons kv rest ih =>
    have h1 := CIDict.inv_set lower d kv.1 kv.2 h
    have ih' := ih (CIDict.setItem lower d kv.1 kv.2) h1 (fun x hx => hs x (by simp [hx]))
    refine ⟨ih'.1, fun x => ?_⟩
    have ihx := ih'.2 x
    rw [CIDict.abs_set lower d _ _ h] at ihx
    by_cases hr : ∃ kv ∈ rest, lower kv.1 = x
    · refine ⟨fun _ => ihx.1 hr, fun hn => ?_⟩
      obtain ⟨y, hy, hyx⟩ := hr
      exact absurd ⟨y, by simp [hy], hyx⟩ hn
    · have h2 := ihx.2 hr
      constructor
      · rintro ⟨y, hy, hyx⟩
        rcases List.mem_cons.1 hy with rfl | hy
        · show CIDict.abs (CIDict.update lower (CIDict.setItem lower d y.1 y.2) rest) x = _
          rw [h2]; subst hyx; simp [FoldMap.put, hs y (by simp)]
        · exact absurd ⟨y, hy, hyx⟩ hr
      · intro hn
        show CIDict.abs (CIDict.update lower (CIDict.setItem lower d kv.1 kv.2) rest) x = _
        rw [h2]
        have : x ≠ lower kv.1 := fun hx => hn ⟨kv, by simp, hx.symm⟩
        simp [FoldMap.put, this]

end Laurelin
