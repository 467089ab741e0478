import Verif.Model.Dn
import Verif.Spec.Dn
import Verif.Props.Mirror
import Verif.Props.Filter
import Verif.Props.Search
/-!
Properties C45 (DN composition) and C46 (find).
-/
set_option linter.unusedSectionVars false
namespace Laurelin.Props
open Laurelin Spec

namespace DnP

theorem rdnText_comma (t : Str) : rdnText (',' :: t) = false := by rw [rdnText.eq_def]; rfl

theorem rdnText_bs (c : Char) (u : Str) : rdnText ('\\' :: c :: u) = rdnText u := by rw [rdnText.eq_def]; rfl

theorem rdnText_bs1 : rdnText ['\\'] = false := by rw [rdnText.eq_def]; rfl

theorem rdnText_other (c : Char) (t : Str) (h1 : c ≠ ',') (h2 : c ≠ '\\') : rdnText (c :: t) = rdnText t := by
  rw [rdnText.eq_def]; simp [h1, h2]

/-- induction over the text of an RDN -/
theorem rdn_ind {P : Str → Prop} (nil : P []) (esc : ∀ a u, rdnText u = true → P u → P ('\\' :: a :: u))
    (other : ∀ c t, c ≠ ',' → c ≠ '\\' → rdnText t = true → P t → P (c :: t)) : ∀ (r : Str), rdnText r = true → P r
  | [], _ => nil
  | [c], h => by
    by_cases h1 : c = ','
    · subst h1; rw [rdnText_comma] at h; simp at h
    · by_cases h2 : c = '\\'
      · subst h2; rw [rdnText_bs1] at h; simp at h
      · exact other c [] h1 h2 rfl nil
  | c :: a :: u, h => by
    by_cases h1 : c = ','
    · subst h1; rw [rdnText_comma] at h; simp at h
    · by_cases h2 : c = '\\'
      · subst h2; rw [rdnText_bs] at h
        exact esc a u h (rdn_ind nil esc other u h)
      · rw [rdnText_other c _ h1 h2] at h
        exact other c _ h1 h2 h (rdn_ind nil esc other (a :: u) h)

theorem rdnText_cut (r r' x y : Str) (h : rdnText r = true) (h' : rdnText r' = true) (e : r ++ ',' :: x = r' ++ ',' :: y) : r = r' ∧ x = y := by
  revert r' e
  refine rdn_ind (P := fun r => ∀ r', rdnText r' = true → r ++ ',' :: x = r' ++ ',' :: y → r = r' ∧ x = y) ?_ ?_ ?_ r h
  · intro r' h' e
    cases r' with
    | nil => simpa using e
    | cons c t =>
      simp at e
      rw [← e.1, rdnText_comma] at h'
      simp at h'
  · intro a u _ ih r' h' e
    cases r' with
    | nil => simp at e
    | cons c' t' =>
      simp at e
      obtain ⟨rfl, e⟩ := e
      cases t' with
      | nil => rw [rdnText_bs1] at h'; simp at h'
      | cons b u' =>
        simp at e
        obtain ⟨rfl, e⟩ := e
        rw [rdnText_bs] at h'
        have := ih u' h' e
        simp [this]
  · intro c t h1 h2 _ ih r' h' e
    cases r' with
    | nil => simp at e; exact absurd e.1 h1
    | cons c' t' =>
      simp at e
      obtain ⟨rfl, e⟩ := e
      rw [rdnText_other _ _ h1 h2] at h'
      have := ih t' h' e
      simp [this]

theorem rdnText_no_cut (r r' y : Str) (h : rdnText r = true) (h' : rdnText r' = true) (e : r = r' ++ ',' :: y) : False := by
  subst e
  revert h
  refine rdn_ind (P := fun r' => rdnText (r' ++ ',' :: y) = true → False) ?_ ?_ ?_ r' h'
  · intro h; rw [List.nil_append, rdnText_comma] at h; simp at h
  · intro a u _ ih h
    rw [List.cons_append, List.cons_append, rdnText_bs] at h
    exact ih h
  · intro c t h1 h2 _ ih h
    rw [List.cons_append, rdnText_other _ _ h1 h2] at h
    exact ih h

theorem dnText_cons (r : Str) (l : List Str) (h : l ≠ []) : dnText (r :: l) = r ++ ',' :: dnText l := by
  cases l with
  | nil => exact absurd rfl h
  | cons a l => rfl

theorem rdnText_app (a b : Str) (ha : rdnText a = true) (hb : rdnText b = true) : rdnText (a ++ b) = true := by
  refine rdn_ind (P := fun a => rdnText (a ++ b) = true) ?_ ?_ ?_ a ha
  · simpa using hb
  · intro x u _ ih; rw [List.cons_append, List.cons_append, rdnText_bs]; exact ih
  · intro c t h1 h2 _ ih; rw [List.cons_append, rdnText_other _ _ h1 h2]; exact ih

theorem rdnText_escTail (v : Str) : rdnText (escTail v) = true := by
  induction v with
  | nil => rfl
  | cons c t ih =>
    rw [escTail.eq_def]
    split
    · rename_i h; cases h
    · rename_i h; cases h; decide
    · rename_i c' t' _ h
      cases h
      split
      · rw [rdnText_bs]; exact ih
      · rename_i hs
        have h1 : c ≠ ',' := fun e => hs (by rw [e]; decide)
        have h2 : c ≠ '\\' := fun e => hs (by rw [e]; decide)
        rw [rdnText_other _ _ h1 h2]; exact ih

theorem rdnText_escape (v : Str) : rdnText (dnEscape v) = true := by
  cases v with
  | nil => rfl
  | cons c t =>
    simp only [dnEscape]
    split
    · rw [rdnText_bs]; exact rdnText_escTail t
    · exact rdnText_escTail _

end DnP
open DnP

/-- The specification's DN texts are unambiguous: a text has at most one sequence of RDNs. -/
theorem c45_dn_unambiguous (s : Str) (l l' : List Str) (h : IsDn s l) (h' : IsDn s l') : l = l' := by
  obtain ⟨rfl, h⟩ := h
  obtain ⟨e, h'⟩ := h'
  induction l generalizing l' with
  | nil =>
    cases l' with
    | nil => rfl
    | cons a t =>
      exfalso
      have := (h' a (by simp)).1
      cases t <;> simp_all [dnText]
  | cons r l ih =>
    cases l' with
    | nil =>
      exfalso
      have := (h r (by simp)).1
      cases l <;> simp_all [dnText]
    | cons r' l' =>
      have hr := (h r (by simp)).2
      have hr' := (h' r' (by simp)).2
      by_cases hl : l = []
      · subst hl
        by_cases hl' : l' = []
        · subst hl'; simp [dnText] at e; simp [e]
        · rw [dnText_cons _ _ hl'] at e
          exact absurd e (fun e => rdnText_no_cut _ _ _ hr hr' e)
      · by_cases hl' : l' = []
        · subst hl'
          rw [dnText_cons _ _ hl] at e
          exact absurd e.symm (fun e => rdnText_no_cut _ _ _ hr' hr e)
        · rw [dnText_cons _ _ hl, dnText_cons _ _ hl'] at e
          have := rdnText_cut _ _ _ _ hr hr' e
          rw [this.1, ih l' (fun x hx => h x (by simp [hx])) this.2 (fun x hx => h' x (by simp [hx]))]

/-- **C45.** `rdn(x)`: with `=` in `x` it is `x,<base>`; without, it is `<rdn_attr>=x,<base>`, or `ValueError` when the object has no
`rdn_attr`. -/
theorem c45_rdn (o : LObj) (base x : Str) (h : o.dn = some base) :
    ('=' ∈ x → o.rdn x = .ok (x ++ str "," ++ base)) ∧
    ('=' ∉ x → ∀ a, o.rdnAttr = some a → o.rdn x = .ok (a ++ str "=" ++ x ++ str "," ++ base)) ∧
    ('=' ∉ x → o.rdnAttr = none → o.rdn x = .error .valueError) := by
  refine ⟨fun hx => ?_, fun hx a ha => ?_, fun hx ha => ?_⟩ <;> simp [LObj.rdn, LObj.fullRdn, *]

/-- **C45 (partial: the value needs no escaping and has no `=`; the base is not the empty DN).** The name `rdn(v)` builds is the child of the
base with RDN `<rdn_attr>=<v>` in the sense of RFC 4514. -/
theorem c45_rdn_child_partial (o : LObj) (base a v : Str) (rdns : List Str) (h : o.dn = some base) (hb : IsDn base rdns) (hne : rdns ≠ [])
    (ha : o.rdnAttr = some a) (ha' : rdnText a = true) (hv : '=' ∉ v) (hplain : dnEscape v = v) :
    ∃ s, o.rdn v = .ok s ∧ IsDn s (avaRdn a v :: rdns) := by
  refine ⟨_, (c45_rdn o base v h).2.1 hv a ha, ?_, ?_⟩
  · rw [dnText_cons _ _ hne, avaRdn, hplain, ← hb.1]; simp
  · intro r hr
    rcases List.mem_cons.1 hr with rfl | hr
    · refine ⟨by simp [avaRdn], rdnText_app _ _ ha' ?_⟩
      rw [rdnText_other _ _ (by decide) (by decide)]; exact rdnText_escape v
    · exact hb.2 r hr

example : dnEscape (str "John Smith") = str "John Smith" := by decide
example : (⟨some (str "dc=example,dc=org"), true, CIDict.empty, .sub, some (str "cn")⟩ : LObj).rdn (str "John Smith") =
    .ok (str "cn=John Smith,dc=example,dc=org") := by decide

/-- **C45.** A full RDN (one that contains `=`) that is well-formed gives the child with exactly that RDN. -/
theorem c45_rdn_full (o : LObj) (base r : Str) (rdns : List Str) (h : o.dn = some base) (hb : IsDn base rdns) (hne : rdns ≠ [])
    (hr : '=' ∈ r) (hr' : rdnText r = true) : ∃ s, o.rdn r = .ok s ∧ IsDn s (r :: rdns) := by
  refine ⟨_, (c45_rdn o base r h).1 hr, ?_, ?_⟩
  · rw [dnText_cons _ _ hne, ← hb.1]; simp
  · intro q hq
    rcases List.mem_cons.1 hq with rfl | hq
    · exact ⟨fun e => by simp [e] at hr, hr'⟩
    · exact hb.2 q hq

/-- **C45, what is false.** A value with a comma makes a DN with one more RDN; a value with `=` is taken for a whole RDN and loses the RDN
attribute; below the empty DN the result is no DN at all; and after `delete()` the base is the text `None`. -/
theorem c45_rdn_counterexamples :
    (let o : LObj := ⟨some (str "dc=x"), true, CIDict.empty, .sub, some (str "cn")⟩
     o.rdn (str "Smith, John") = .ok (str "cn=Smith, John,dc=x") ∧
     IsDn (str "cn=Smith, John,dc=x") [str "cn=Smith", str " John", str "dc=x"] ∧
     o.rdn (str "a=b") = .ok (str "a=b,dc=x")) ∧
    (let o : LObj := ⟨some [], true, CIDict.empty, .sub, some (str "cn")⟩
     o.rdn (str "x") = .ok (str "cn=x,") ∧ ¬ ∃ l, IsDn (str "cn=x,") l) ∧
    (let o : LObj := ⟨none, false, CIDict.empty, .sub, some (str "cn")⟩
     o.rdn (str "x") = .ok (str "cn=x,None")) := by
  refine ⟨⟨by decide, ⟨by decide, by decide⟩, by decide⟩, ⟨by decide, ?_⟩, by decide⟩
  rintro ⟨l, e, h⟩
  cases l with
  | nil => cases e
  | cons r l =>
    have hr := (h r List.mem_cons_self).2
    by_cases hl : l = []
    · subst hl
      simp only [dnText] at e
      subst e
      exact absurd hr (by decide)
    · rw [dnText_cons _ _ hl] at e
      have := rdnText_cut (str "cn=x") r [] (dnText l) (by decide) hr e
      cases l with
      | nil => exact hl rfl
      | cons q l =>
        have hq := (h q (by simp)).1
        have h2 := this.2
        cases l with
        | nil => exact hq h2.symm
        | cons _ _ => rw [dnText] at h2; simp at h2

/-- **C45.** `obj(rdn)` is the object named `rdn(rdn)`, holding the given attributes, on the same connection, with the parent's
`relative_search_scope` and `rdn_attr` unless given; it raises exactly when the name cannot be built, when a tag is given without a
connection, or when the tag is taken. -/
theorem c45_obj (lower : Str → Str) (o : LObj) (rdn : Str) (attrs : List (Str × List Str)) (scope : Option Scope)
    (rdnAttr : Option (Option Str)) (tag : Option Bool) :
    (∀ dn, o.rdn rdn = .ok dn → (o.conn = true → tag ≠ some true) → (o.conn = false → tag = none) →
      ∃ n, o.obj lower rdn attrs scope rdnAttr tag = .ok n ∧ n.dn = some dn ∧ n.conn = o.conn ∧
        n.attrs = CIDict.update lower CIDict.empty attrs ∧ n.scope = scope.getD o.scope ∧ n.rdnAttr = rdnAttr.getD o.rdnAttr) ∧
    (∀ e, o.rdn rdn = .error e → ∃ e', o.obj lower rdn attrs scope rdnAttr tag = .error e') ∧
    (o.conn = false → tag.isSome → o.obj lower rdn attrs scope rdnAttr tag = .error .ldapError) ∧
    (∀ dn, o.rdn rdn = .ok dn → o.conn = true → tag = some true → o.obj lower rdn attrs scope rdnAttr tag = .error .tagError) := by
  refine ⟨fun dn h h1 h2 => ?_, fun e h => ?_, fun h1 h2 => ?_, fun dn h h1 h2 => ?_⟩
  · cases hc : o.conn with
    | true => simp [LObj.obj, hc, h, h1 hc]
    | false => simp [LObj.obj, hc, h, h2 hc]
  · cases hc : o.conn with
    | true => exact ⟨e, by simp [LObj.obj, hc, h]⟩
    | false =>
      by_cases ht : tag.isSome
      · exact ⟨.ldapError, by simp [LObj.obj, hc, ht]⟩
      · exact ⟨e, by simp [LObj.obj, hc, h, ht]⟩
  · simp [LObj.obj, h1, h2]
  · simp [LObj.obj, h, h1, h2]

/-! ### Renaming and moving -/

section values
variable {V : Type} [DecidableEq V] (lower : Str → Str) (typeOf : TypeOf V)

theorem dropFirst_none (p : V → Bool) (l : List V) (h : l.any p = false) : dropFirst p l = l := by
  induction l with
  | nil => rfl
  | cons x t ih =>
    simp at h
    simp [dropFirst, h.1, ih (by simpa using h.2)]

/-- deleting the old value locally does what the server does -/
theorem drop_sim {m : Str → V → V → Bool} {G : Str → V → Prop} (hD : Decides typeOf m G) {P : Str → Prop}
    (d : AttrsDict V) (e : Entry V) (a : Str) (v : V) (h : CIDict.Inv lower d) (hs : SyncOn P d e) (hg : GoodEntry lower G e) (hgv : G a v) :
    CIDict.Inv lower (localDeleteVals lower typeOf a d [v]).1 ∧
    SyncOn P (localDeleteVals lower typeOf a d [v]).1 (e.put lower a (dropFirst (fun x => m a x v) (e (lower a)))) := by
  have hf := localDeleteVals_frame lower typeOf a [v] d h
  refine ⟨hf.1, ?_⟩
  by_cases hP : P (lower a)
  · by_cases hany : (e (lower a)).any (fun x => m a x v) = true
    · obtain ⟨d', h1, h2, h3, _⟩ := localDeleteVals_sim lower hD a hP [v] d e (dropFirst (fun x => m a x v) (e (lower a))) h hs (hg a) (by simpa using hgv)
        (by simp only [srvDelete, hany, if_true])
      rw [h1]; exact h3
    · have hany' : (e (lower a)).any (fun x => m a x v) = false := by simpa using hany
      rw [dropFirst_none _ _ hany', put_self]
      have hsame : (localDeleteVals lower typeOf a d [v]).1 = d := by
        simp only [localDeleteVals, deleteAttrValue]
        cases hget : CIDict.getItem lower d a with
        | error e' => cases e' <;> rfl
        | ok l =>
          have hl : l = e (lower a) := by
            have := hs _ hP
            rw [CIDict.getItem_eq lower d h] at hget
            cases habs : CIDict.abs d (lower a) with
            | none => rw [habs] at hget; simp at hget
            | some w => rw [habs] at hget this; simp at hget this; rw [← hget, this]
          have hidx := hD a l v (by rw [hl]; exact hg a) hgv
          have hnone : l.findIdx? (fun x => m a x v) = none := by
            rw [List.findIdx?_eq_none_iff]
            intro x hx
            rw [hl] at hx
            have := List.any_eq_false.1 hany' x hx
            simpa using this
          rw [hnone] at hidx
          simp only [AttrValueList.remove, hidx]
      rw [hsame]; exact hs
  · intro x hx
    have hne : x ≠ lower a := fun e' => hP (e' ▸ hx)
    rw [hf.2 x hne, hs x hx]
    simp [Entry.put, hne]

/-- adding the new value locally does what the server does -/
theorem put_sim {m : Str → V → V → Bool} {G : Str → V → Prop} (hD : Decides typeOf m G) {P : Str → Prop}
    (d : AttrsDict V) (e : Entry V) (a : Str) (v : V) (h : CIDict.Inv lower d) (hs : SyncOn P d e) (hg : ∀ x ∈ e (lower a), G a x) (hgv : G a v) :
    let out := putVal lower typeOf d a v
    CIDict.Inv lower out.1 ∧
    SyncOn P out.1 (if (e (lower a)).any (fun x => m a x v) then e else e.put lower a (e (lower a) ++ [v])) ∧
    (P (lower a) → out.2 = .ok ()) := by
  simp only [putVal]
  by_cases hP : P (lower a)
  · have hga := sync_getAttr lower d h e hs a hP
    by_cases hh : AttrsDict.has lower d a = false
    · simp only [hh, if_true]
      rw [AttrsDict.has_false_iff] at hh
      rw [hh] at hga
      have h0 : (e (lower a)).any (fun x => m a x v) = false := by rw [← hga]; rfl
      rw [h0, ← hga]
      have := sync_set lower d h e hs a [v]
      exact ⟨this.1, by simpa using this.2, fun _ => trivial⟩
    · have hh' : AttrsDict.has lower d a = true := by simpa using hh
      simp only [hh', Bool.true_eq_false, if_false]
      have hidx := hD a (e (lower a)) v hg hgv
      rw [hga]
      by_cases hany : (e (lower a)).any (fun x => m a x v) = true
      · obtain ⟨i, hi⟩ := Option.isSome_iff_exists.1 (by rw [List.findIdx?_isSome]; exact hany : ((e (lower a)).findIdx? (fun x => m a x v)).isSome)
        rw [hi] at hidx
        simp only [AttrValueList.contains, hidx, hany, if_true]
        exact ⟨h, hs, fun _ => trivial⟩
      · have hnone : (e (lower a)).findIdx? (fun x => m a x v) = none := by
          rw [List.findIdx?_eq_none_iff]
          intro x hx
          have := List.any_eq_false.1 (by simpa using hany : (e (lower a)).any (fun x => m a x v) = false) x hx
          simpa using this
        rw [hnone] at hidx
        simp only [AttrValueList.contains, hidx, hany]
        have hne : e (lower a) ≠ [] := by
          rw [← hga]; rw [← AttrsDict.has_iff]; simpa using hh
        have := sync_setInPlace lower d h e hs a (e (lower a) ++ [v]) ⟨_, abs_of_ne_nil d e hs _ hP hne⟩
        exact ⟨this.1, by simpa using this.2.1, fun _ => trivial⟩
  · have hfr : ∀ d', (∀ x, x ≠ lower a → CIDict.abs d' x = CIDict.abs d x) →
        SyncOn P d' (if (e (lower a)).any (fun x => m a x v) then e else e.put lower a (e (lower a) ++ [v])) := by
      intro d' hd' x hx
      have hne : x ≠ lower a := fun e' => hP (e' ▸ hx)
      rw [hd' x hne, hs x hx]
      split
      · rfl
      · simp [Entry.put, hne]
    split
    · refine ⟨CIDict.inv_set lower d a [v] h, hfr _ ?_, fun hp => absurd hp hP⟩
      intro x hx
      rw [CIDict.abs_set lower d a [v] h]; simp [FoldMap.put, hx]
    · split
      · exact ⟨h, hfr _ fun _ _ => rfl, fun hp => absurd hp hP⟩
      · exact ⟨h, hfr _ fun _ _ => rfl, fun hp => absurd hp hP⟩
      · have := setInPlace_frame lower d h a (AttrsDict.getAttr lower d a ++ [v])
        exact ⟨this.1, hfr _ this.2, fun hp => absurd hp hP⟩

theorem dropVal_eq (d : AttrsDict V) (a : Str) (v : V) : dropVal lower typeOf d a v = (localDeleteVals lower typeOf a d [v]).1 := by
  simp only [dropVal, localDeleteVals]
  cases deleteAttrValue lower typeOf d a v with
  | ok d' => rfl
  | error e => cases e <;> rfl

/-- what a rename does to the values is what the server does -/
theorem rename_sim {m : Str → V → V → Bool} {G : Str → V → Prop} (hD : Decides typeOf m G) (hf : FoldCompat lower m G) (d : AttrsDict V) (e : Entry V) (a : Str) (v : V) (a' : Str) (v' : V) (clean : Bool)
    (hinv : CIDict.Inv lower d) (hg : GoodEntry lower G e) (hgv : G a v) (hgv' : G a' v') (hknown : AttrsDict.getAttr lower d a' = e (lower a')) :
    let out := putVal lower typeOf (if clean then dropVal lower typeOf d a v else d) a' v'
    CIDict.Inv lower out.1 ∧ out.2 = .ok () ∧
    ∀ x, AttrsDict.getAttr lower d x = e (lower x) → AttrsDict.getAttr lower out.1 x = srvRename lower m e a v a' v' clean (lower x) := by
  let P : Str → Prop := fun x => (CIDict.abs d x).getD [] = e x
  have hs : SyncOn P d e := fun x hx => hx
  have hP : ∀ x, AttrsDict.getAttr lower d x = e (lower x) → P (lower x) := by
    intro x hx
    show (CIDict.abs d (lower x)).getD [] = e (lower x)
    rw [← getAttr_abs lower _ hinv]
    exact hx
  cases clean with
  | true =>
    simp only [if_true, dropVal_eq]
    have h1 := drop_sim lower typeOf hD d e a v hinv hs hg hgv
    have hg1 : ∀ x ∈ (e.put lower a (dropFirst (fun x => m a x v) (e (lower a)))) (lower a'), G a' x := by
      intro x hx
      simp only [Entry.put] at hx
      split at hx
      · rename_i he
        exact hf.gc a a' he.symm x (hg a x (mem_dropFirst _ _ _ hx))
      · exact hg a' x hx
    obtain ⟨g1, g2, g3⟩ := put_sim lower typeOf hD _ _ a' v' h1.1 h1.2 hg1 hgv'
    refine ⟨g1, g3 (hP a' hknown), fun x hx => ?_⟩
    simp only [srvRename, if_true]
    exact sync_getAttr lower _ g1 _ g2 x (hP x hx)
  | false =>
    simp only [Bool.false_eq_true, if_false]
    obtain ⟨g1, g2, g3⟩ := put_sim lower typeOf hD _ _ a' v' hinv hs (hg a') hgv'
    refine ⟨g1, g3 (hP a' hknown), fun x hx => ?_⟩
    simp only [srvRename, Bool.false_eq_true, if_false]
    exact sync_getAttr lower _ g1 _ g2 x (hP x hx)

/-- and the values stay acceptable -/
theorem rename_good {m : Str → V → V → Bool} {G : Str → V → Prop} (hf : FoldCompat lower m G) (e : Entry V) (a : Str) (v : V) (a' : Str) (v' : V) (clean : Bool) (hg : GoodEntry lower G e) (hgv' : G a' v') :
    GoodEntry lower G (srvRename lower m e a v a' v' clean) := by
  have h1 : GoodEntry lower G (if clean then e.put lower a (dropFirst (fun x => m a x v) (e (lower a))) else e) := by
    split
    · intro b x hx
      simp only [Entry.put] at hx
      split at hx
      · rename_i he
        exact hf.gc a b he.symm x (hg a x (mem_dropFirst _ _ _ hx))
      · exact hg b x hx
    · exact hg
  simp only [srvRename]
  generalize (if clean then e.put lower a (dropFirst (fun x => m a x v) (e (lower a))) else e) = e1 at h1 ⊢
  split
  · exact h1
  · intro b x hx
    simp only [Entry.put] at hx
    split at hx
    · rename_i he
      rcases List.mem_append.1 hx with hx | hx
      · exact hf.gc a' b he.symm x (h1 a' x hx)
      · rw [List.mem_singleton.1 hx]
        exact hf.gc a' b he.symm v' hgv'
    · exact h1 b x hx

/-- what is shown after a change of name is what the entry has then, if that was so before -/
theorem rename_view {m : Str → V → V → Bool} {G : Str → V → Prop} (hD : Decides typeOf m G) (hf : FoldCompat lower m G) (d : AttrsDict V) (e : Entry V) (a : Str) (v : V) (a' : Str) (v' : V) (clean : Bool)
    (hinv : CIDict.Inv lower d) (hg : GoodEntry lower G e) (hview : ∀ x, AttrsDict.getAttr lower d x ≠ [] → AttrsDict.getAttr lower d x = e (lower x)) (hgv : G a v) (hgv' : G a' v')
    (hknown : AttrsDict.getAttr lower d a' = e (lower a')) :
    let out := putVal lower typeOf (if clean then dropVal lower typeOf d a v else d) a' v'
    ∀ x, AttrsDict.getAttr lower out.1 x ≠ [] → AttrsDict.getAttr lower out.1 x = srvRename lower m e a v a' v' clean (lower x) := by
  intro out x hx
  have h1 := (rename_sim lower typeOf hD hf d e a v a' v' clean hinv hg hgv hgv' hknown).2.2
  let e2 : Entry V := fun y => (CIDict.abs d y).getD []
  have he2 : ∀ y, AttrsDict.getAttr lower d y = e2 (lower y) := fun y => getAttr_abs lower _ hinv y
  have hg2 : GoodEntry lower G e2 := by
    intro b y hy
    rw [← he2] at hy
    rw [hview b (fun h0 => by rw [h0] at hy; cases hy)] at hy
    exact hg b y hy
  have h2 := (rename_sim lower typeOf hD hf d e2 a v a' v' clean hinv hg2 hgv hgv' (he2 a')).2.2 x (he2 x)
  by_cases hxa : lower x = lower a'
  · refine h1 x ?_
    rw [he2 x, hxa, ← he2 a']
    exact hknown
  · by_cases h0 : AttrsDict.getAttr lower d x = []
    · exfalso
      apply hx
      rw [show AttrsDict.getAttr lower out.1 x = _ from h2]
      have hz : e2 (lower x) = [] := by rw [← he2 x]; exact h0
      have hz1 : (if clean then e2.put lower a (dropFirst (fun x => m a x v) (e2 (lower a))) else e2) (lower x) = [] := by
        split
        · simp only [Entry.put]
          split
          · rename_i he
            rw [← he, hz]
            rfl
          · exact hz
        · exact hz
      simp only [srvRename]
      generalize (if clean then e2.put lower a (dropFirst (fun x => m a x v) (e2 (lower a))) else e2) = e3 at hz1 ⊢
      split
      · exact hz1
      · simp only [Entry.put, if_neg hxa]
        exact hz1
    · exact h1 x (hview x h0)

end values

section modDn
variable (lower : Str → Str) (typeOf : TypeOf Str)

/-- **C45 (partial: the old RDN has no escaped comma and is not the whole DN; the new parent is not the empty DN).** `mod_dn` sends at most one
request, naming the object's DN, the new RDN and the (new or old) parent; when it returns, the object's DN is the one the server gave the
entry: the new RDN below the new or old parent. When the server refuses, the object is exactly as before. -/
theorem c45_mod_dn_partial (unbound : Bool) (ctrls : Except Err Unit) (server : ModDnReq → Except Err Unit) (o : LObj) (dn r newRdn : Str)
    (parents : List Str) (clean : Bool) (np : Option (List Str)) (hc : o.conn = true) (hdn : o.dn = some dn) (h : IsDn dn (r :: parents))
    (hr : ',' ∉ r) (hp : parents ≠ []) (hn : newRdn ≠ [] ∧ rdnText newRdn = true)
    (hnp : ∀ l ∈ np, l ≠ [] ∧ ∀ q ∈ l, q ≠ [] ∧ rdnText q = true) :
    let out := o.modDn lower typeOf unbound ctrls server newRdn clean (np.map dnText)
    let rq : ModDnReq := ⟨dn, newRdn, clean, some (dnText (np.getD parents))⟩
    (out.2.sent = [] ∨ out.2.sent = [rq]) ∧
    (out.2.result = .ok () → out.2.sent = [rq] ∧ server rq = .ok () ∧
      ∃ dn', out.1.dn = some dn' ∧ IsDn dn' (renamed (r :: parents) newRdn np)) ∧
    ((∀ q, server q ≠ .ok ()) → out.1 = o) := by
  have hs : splitFirst ',' dn = some (r, dnText parents) := by
    rw [splitFirst_some]
    exact ⟨hr, by rw [h.1, dnText_cons _ _ hp]⟩
  have hpar : (np.map dnText).getD (dnText parents) = dnText (np.getD parents) := by cases np <;> rfl
  have hfin : IsDn (newRdn ++ str "," ++ dnText (np.getD parents)) (renamed (r :: parents) newRdn np) := by
    have hl : np.getD parents ≠ [] ∧ ∀ q ∈ np.getD parents, q ≠ [] ∧ rdnText q = true := by
      cases np with
      | none => exact ⟨hp, fun q hq => h.2 q (by simp at hq; simp [hq])⟩
      | some l => exact hnp l rfl
    have e : renamed (r :: parents) newRdn np = newRdn :: np.getD parents := by cases np <;> rfl
    rw [e]
    refine ⟨by rw [dnText_cons _ _ hl.1]; simp, ?_⟩
    intro q hq
    rcases List.mem_cons.1 hq with rfl | hq
    · exact hn
    · exact hl.2 q hq
  simp only [LObj.modDn, hc, hdn, hs, hpar, ldapModDn]
  by_cases hu : unbound = true
  · simp [hu]
  · simp only [hu, if_false, Bool.false_eq_true, Bool.true_eq_false]
    cases ctrls with
    | error e => simp
    | ok _ =>
      simp only
      cases hsv : server ⟨dn, newRdn, clean, some (dnText (np.getD parents))⟩ with
      | error e => simp
      | ok _ =>
        simp only
        have hno : ¬ ∀ q, server q ≠ .ok () := fun h => h _ hsv
        split
        · exact ⟨.inr rfl, fun h => by simp at h, fun h => absurd h hno⟩
        · split
          · exact ⟨.inr rfl, fun h => by simp at h, fun h => absurd h hno⟩
          · exact ⟨.inr rfl, fun _ => ⟨rfl, trivial, _, rfl, hfin⟩, fun h => absurd h hno⟩

theorem addNew_eq (d : AttrsDict Str) (a v : Str) (ha : '=' ∉ a) : addNew lower typeOf d (a ++ '=' :: v) = putVal lower typeOf d a v := by
  have hsp : splitFirst '=' (a ++ '=' :: v) = some (a, v) := by rw [splitFirst_some]; exact ⟨ha, rfl⟩
  simp only [addNew, hsp]

theorem cleanOld_eq (d : AttrsDict Str) (a v : Str) (ha : '=' ∉ a) :
    cleanOld lower typeOf d (a ++ '=' :: v) = .ok (localDeleteVals lower typeOf a d [v]).1 := by
  have : splitFirst '=' (a ++ '=' :: v) = some (a, v) := by rw [splitFirst_some]; exact ⟨ha, rfl⟩
  simp only [cleanOld, dropVal, this, localDeleteVals]
  cases deleteAttrValue lower typeOf d a v with
  | ok d' => rfl
  | error e => cases e <;> rfl

/-- **C45 and C10 for names (partial: single-valued RDNs whose values need no escaping).** When the server carried out a rename and the local
object agreed with the server on the new RDN's attribute, `mod_dn` returns normally, and every attribute on which the object agreed with the
server before agrees with it after (the server removes the old RDN's value when asked to, and adds the new one unless it is there). -/
theorem c45_attrs_partial {m : Str → Str → Str → Bool} {G : Str → Str → Prop} (hD : Decides typeOf m G)
    (hf : FoldCompat lower m G) (server : ModDnReq → Except Err Unit) (hok : ∀ q, server q = .ok ()) (o : LObj) (e : Entry Str)
    (a v a' v' parent : Str) (clean : Bool) (np : Option Str) (hc : o.conn = true) (hdn : o.dn = some (avaRdn a v ++ ',' :: parent))
    (ha : '=' ∉ a ∧ ',' ∉ a) (hv : dnEscape v = v) (ha' : '=' ∉ a') (hv' : dnEscape v' = v') (hvc : ',' ∉ v)
    (hinv : CIDict.Inv lower o.attrs) (hg : GoodEntry lower G e) (hgv : G a v) (hgv' : G a' v')
    (hknown : AttrsDict.getAttr lower o.attrs a' = e (lower a')) :
    let out := o.modDn lower typeOf false (.ok ()) server (avaRdn a' v') clean np
    out.2.result = .ok () ∧
    ∀ x, AttrsDict.getAttr lower o.attrs x = e (lower x) →
      AttrsDict.getAttr lower out.1.attrs x = srvRename lower m e a v a' v' clean (lower x) := by
  have hcut : splitFirst ',' (avaRdn a v ++ ',' :: parent) = some (avaRdn a v, parent) := by
    rw [splitFirst_some]
    exact ⟨by simp [avaRdn, hv, ha.2, hvc], rfl⟩
  let P : Str → Prop := fun x => (CIDict.abs o.attrs x).getD [] = e x
  have hs : SyncOn P o.attrs e := fun x hx => hx
  have hPa' : P (lower a') := by show (CIDict.abs o.attrs (lower a')).getD [] = e (lower a'); rw [← getAttr_abs lower _ hinv]; exact hknown
  simp only [LObj.modDn, hc, hdn, hcut, ldapModDn, hok, Bool.true_eq_false, Bool.false_eq_true, if_false]
  have hrdn : ∀ b w, dnEscape w = w → avaRdn b w = b ++ '=' :: w := fun b w h => by rw [avaRdn, h]
  rw [hrdn a v hv, hrdn a' v' hv', cleanOld_eq lower typeOf _ a v ha.1]
  simp only [addNew_eq lower typeOf _ a' v' ha']
  cases clean with
  | true =>
    simp only [if_true]
    have h1 := drop_sim lower typeOf hD o.attrs e a v hinv hs hg hgv
    have hg1 : ∀ x ∈ (e.put lower a (dropFirst (fun x => m a x v) (e (lower a)))) (lower a'), G a' x := by
      intro x hx
      simp only [Entry.put] at hx
      split at hx
      · rename_i he
        exact hf.gc a a' he.symm x (hg a x (mem_dropFirst _ _ _ hx))
      · exact hg a' x hx
    have h2 := put_sim lower typeOf hD _ _ a' v' h1.1 h1.2 hg1 hgv'
    revert h2
    cases hadd : putVal lower typeOf (localDeleteVals lower typeOf a o.attrs [v]).1 a' v' with
    | mk d' res =>
      rintro ⟨g1, g2, g3⟩
      have := g3 hPa'
      simp only at this
      subst this
      refine ⟨rfl, fun x hx => ?_⟩
      simp only [srvRename, if_true]
      exact sync_getAttr lower d' g1 _ g2 x (by show (CIDict.abs o.attrs (lower x)).getD [] = _; rw [← getAttr_abs lower _ hinv]; exact hx)
  | false =>
    simp only [Bool.false_eq_true, if_false]
    have h2 := put_sim lower typeOf hD _ _ a' v' hinv hs (hg a') hgv'
    revert h2
    cases hadd : putVal lower typeOf o.attrs a' v' with
    | mk d' res =>
      rintro ⟨g1, g2, g3⟩
      have := g3 hPa'
      simp only at this
      subst this
      refine ⟨rfl, fun x hx => ?_⟩
      simp only [srvRename, Bool.false_eq_true, if_false]
      exact sync_getAttr lower d' g1 _ g2 x (by show (CIDict.abs o.attrs (lower x)).getD [] = _; rw [← getAttr_abs lower _ hinv]; exact hx)

end modDn

/-- Non-vacuity: a rename that removes the old value and adds the new one. -/
example :
    let o : LObj := ⟨some (str "cn=a,dc=x"), true, CIDict.update id CIDict.empty [(str "cn", [str "a", str "b"]), (str "sn", [str "s"])], .sub, none⟩
    let out := o.modDn id (fun _ => .ok .default) false (.ok ()) (fun _ => .ok ()) (str "cn=c") true none
    out.2.result = .ok () ∧ out.2.sent = [⟨str "cn=a,dc=x", str "cn=c", true, some (str "dc=x")⟩] ∧ out.1.dn = some (str "cn=c,dc=x") ∧
    AttrsDict.getAttr id out.1.attrs (str "cn") = [str "b", str "c"] := by
  decide

/-- **C45, what is false.** An escaped comma in the old RDN: the request names the wrong parent (and so does the object afterwards). A DN of one
RDN cannot be changed at all, even with a new parent. A new RDN without `=` is sent and applied by the server, then `ValueError` leaves the
object with its old name. A value with an escaped character keeps its old value locally although the server removed it. -/
theorem c45_mod_dn_counterexamples :
    let mk (dn : Str) (vals : List Str) : LObj := ⟨some dn, true, CIDict.update id CIDict.empty [(str "cn", vals)], .sub, none⟩
    let go (o : LObj) (n : Str) (p : Option Str) := o.modDn id (fun _ => .ok .default) false (.ok ()) (fun _ => .ok ()) n true p
    (IsDn (str "cn=a\\,b,dc=x") [str "cn=a\\,b", str "dc=x"] ∧
      (go (mk (str "cn=a\\,b,dc=x") []) (str "cn=c") none).2.sent = [⟨str "cn=a\\,b,dc=x", str "cn=c", true, some (str "b,dc=x")⟩] ∧
      (go (mk (str "cn=a\\,b,dc=x") []) (str "cn=c") none).1.dn = some (str "cn=c,b,dc=x")) ∧
    ((go (mk (str "dc=x") []) (str "dc=y") (some (str "dc=org"))).2.result = .error .valueError ∧
      (go (mk (str "dc=x") []) (str "dc=y") (some (str "dc=org"))).2.sent = []) ∧
    ((go (mk (str "cn=a,dc=x") []) (str "b") none).2.result = .error .valueError ∧
      (go (mk (str "cn=a,dc=x") []) (str "b") none).2.sent.length = 1 ∧
      (go (mk (str "cn=a,dc=x") []) (str "b") none).1.dn = some (str "cn=a,dc=x")) ∧
    (AttrsDict.getAttr id (go (mk (str "cn=a\\+b,dc=x") [str "a+b"]) (str "cn=c") none).1.attrs (str "cn") = [str "a+b", str "c"] ∧
      srvRename id (fun _ x y => x == y) (fun _ => [str "a+b"]) (str "cn") (str "a+b") (str "cn") (str "c") true (str "cn") = [str "c"]) := by
  refine ⟨⟨⟨by decide, by decide⟩, by decide, by decide⟩, ⟨by decide, by decide⟩, ⟨by decide, by decide, by decide⟩, by decide, by decide⟩

/-- the lookbehind cut finds the first RDN when that does not end in an escaped backslash -/
theorem splitUnescaped_rdn (r rest : Str) (h : rdnText r = true) (hb : r.getLast? ≠ some '\\') :
    splitUnescaped false (r ++ ',' :: rest) = some (r, rest) := by
  revert hb
  refine rdn_ind (P := fun r => r.getLast? ≠ some '\\' → splitUnescaped false (r ++ ',' :: rest) = some (r, rest)) ?_ ?_ ?_ r h
  · intro _; simp [splitUnescaped]
  · intro a u hu ih hb
    by_cases hnil : u = []
    · subst hnil
      have ha : a ≠ '\\' := by simpa using hb
      simp [splitUnescaped, ha]
    · have hb' : u.getLast? ≠ some '\\' := by
        rw [List.getLast?_cons_cons, List.getLast?_cons] at hb
        cases hl : u.getLast? with
        | none => simp [hnil] at hl
        | some z => rw [hl] at hb; simpa using hb
      have := ih hb'
      cases u with
      | nil => exact absurd rfl hnil
      | cons b w =>
        have hbc : b ≠ ',' := by intro e; subst e; rw [rdnText_comma] at hu; simp at hu
        simp only [List.cons_append, splitUnescaped, hbc, false_and, if_false] at this ⊢
        simp [this]
  · intro c t h1 h2 ht ih hb
    by_cases hnil : t = []
    · subst hnil
      simp [splitUnescaped, h1, h2]
    · have hb' : t.getLast? ≠ some '\\' := by
        rw [List.getLast?_cons] at hb
        cases hl : t.getLast? with
        | none => simp [hnil] at hl
        | some z => rw [hl] at hb; simpa using hb
      have := ih hb'
      have h2' : (c == '\\') = false := by simpa using h2
      simp [splitUnescaped, h1, h2', this]

/-- **C45 (partial: the new RDN does not end in an escaped backslash).** `LDAP.move(dn, new_dn)` asks for the new RDN below the new parent,
escaped commas included. -/
theorem c45_move_partial (unbound : Bool) (ctrls : Except Err Unit) (server : ModDnReq → Except Err Unit) (dn newDn r : Str)
    (parents : List Str) (clean : Bool) (h : IsDn newDn (r :: parents)) (hp : parents ≠ []) (hb : r.getLast? ≠ some '\\') :
    ldapMove unbound ctrls server dn newDn clean = ldapModDn unbound ctrls server dn r clean (some (dnText parents)) := by
  have := splitUnescaped_rdn r (dnText parents) (h.2 r (by simp)).2 hb
  rw [← dnText_cons _ _ hp, ← h.1] at this
  simp only [ldapMove, this]

example : ldapMove false (.ok ()) (fun _ => .ok ()) (str "cn=a,dc=x") (str "cn=a\\,b,dc=y") true =
    ⟨[⟨str "cn=a,dc=x", str "cn=a\\,b", true, some (str "dc=y")⟩], .ok ()⟩ := by rfl

/-- C45: a new DN that is a single RDN – however many escaped commas it has – has no parent in it: `move` raises and sends nothing. -/
theorem c45_move_single_rdn (unbound : Bool) (ctrls : Except Err Unit) (server : ModDnReq → Except Err Unit) (dn r : Str) (clean : Bool)
    (h : rdnText r = true) : (ldapMove unbound ctrls server dn r clean).sent = [] ∧ (ldapMove unbound ctrls server dn r clean).result = .error .valueError := by
  have key : splitUnescaped false r = none := by
    refine rdn_ind (P := fun r => splitUnescaped false r = none) ?_ ?_ ?_ r h
    · rfl
    · intro a u hu ih
      have h2 : splitUnescaped (a == '\\') u = none := by
        cases u with
        | nil => rfl
        | cons b w =>
          have hbc : b ≠ ',' := by intro e; subst e; rw [rdnText_comma] at hu; simp at hu
          simp only [splitUnescaped, hbc, false_and, if_false, Option.map_eq_none_iff] at ih ⊢
          exact ih
      simp [splitUnescaped, h2]
    · intro c t h1 h2 ht ih
      have h2' : (c == '\\') = false := by simpa using h2
      simp [splitUnescaped, h1, h2', ih]
  simp [ldapMove, key]

example : rdnText (str "cn=a\\,b\\,") = true := by decide

/-- **C45, what is false of the two `move`s.** An RDN ending in an escaped backslash is not recognised as finished; the object-level method cuts
at an escaped comma. -/
theorem c45_move_counterexamples :
    (IsDn (str "cn=a\\\\,dc=y,dc=z") [str "cn=a\\\\", str "dc=y", str "dc=z"] ∧
      (ldapMove false (.ok ()) (fun _ => .ok ()) (str "cn=a,dc=x") (str "cn=a\\\\,dc=y,dc=z") true).sent =
        [⟨str "cn=a,dc=x", str "cn=a\\\\,dc=y", true, some (str "dc=z")⟩]) ∧
    (let o : LObj := ⟨some (str "cn=a,dc=x"), true, CIDict.empty, .sub, none⟩
     (o.move id (fun _ => .ok .default) false (.ok ()) (fun _ => .ok ()) (str "cn=a\\,b,dc=y") true).2.sent =
        [⟨str "cn=a,dc=x", str "cn=a\\", true, some (str "b,dc=y")⟩]) := by
  refine ⟨⟨⟨by decide, by decide⟩, by decide⟩, by decide⟩

/-- **C45.** The object-level `move(new_dn)` is `mod_dn` with the new DN's RDN and parent when the RDN has no escaped comma. -/
theorem c45_obj_move_partial (lower : Str → Str) (typeOf : TypeOf Str) (unbound : Bool) (ctrls : Except Err Unit)
    (server : ModDnReq → Except Err Unit) (o : LObj) (newDn r : Str) (parents : List Str) (clean : Bool) (h : IsDn newDn (r :: parents))
    (hp : parents ≠ []) (hr : ',' ∉ r) :
    o.move lower typeOf unbound ctrls server newDn clean = o.modDn lower typeOf unbound ctrls server r clean (some (dnText parents)) := by
  have hs : splitFirst ',' newDn = some (r, dnText parents) := by
    rw [splitFirst_some]; exact ⟨hr, by rw [h.1, dnText_cons _ _ hp]⟩
  simp only [LObj.move, hs]

/-- **C45.** `delete()` asks for the deletion of exactly the object's DN. If the server refuses, the object is as before; if it succeeds the
object has no attributes and every later online call raises `RuntimeError` without sending anything. -/
theorem c45_delete (lower : Str → Str) (typeOf : TypeOf Str) (o : LObj) (dn : Str) (hdn : o.dn = some dn) (hc : o.conn = true) (unbound : Bool)
    (ctrls : Except Err Unit) (server : Str → Except Err Unit) :
    let out := o.delete unbound ctrls server
    (∀ x ∈ out.2.1, x = dn) ∧ out.2.1.length ≤ 1 ∧
    (∀ e, out.2.2 = .error e → out.1 = o) ∧
    (out.2.2 = .ok () → out.2.1 = [dn] ∧ server dn = .ok () ∧ (∀ a, AttrsDict.getAttr lower out.1.attrs a = []) ∧
      ∀ (u : Bool) (c : Except Err Unit) (s : ModDnReq → Except Err Unit) (s' : Str → Except Err Unit) (r : Str) (cl : Bool) (p : Option Str),
        (out.1.modDn lower typeOf u c s r cl p).2.sent = [] ∧ (out.1.modDn lower typeOf u c s r cl p).2.result = .error .runtimeError ∧
        (out.1.delete u c s').2 = ([], .error .runtimeError) ∧
        (∀ kw : PDict Str (Controls.Kwd Unit), out.1.findArgs r none kw = .error .runtimeError)) := by
  simp only [LObj.delete, hc, hdn, Bool.true_eq_false, if_false]
  split
  · simp
  · cases ctrls with
    | error e => simp
    | ok _ =>
      simp only
      cases hs : server dn with
      | error e => simp
      | ok _ =>
        simp only [List.mem_singleton, imp_self, implies_true, List.length_singleton, Nat.le_refl, true_and, reduceCtorEq, false_imp_iff]
        intro _
        refine ⟨fun a => rfl, fun u c s s' r cl p => ⟨rfl, rfl, rfl, fun kw => rfl⟩⟩

/-! ### C46 -/

section find
variable {V R E : Type}

/-- the request `find` sends, on a connection `c` -/
def findReq (c : SearchConn V R) (o : LObj) (rdn : Str) (attrs : Option (List Str)) : Except Err SearchReq :=
  match o.findArgs (V := V) rdn attrs [] with
  | .error e => .error e
  | .ok a => match ldapSearch c a with
    | .error e => .error e
    | .ok s => .ok s.req

/-- **C46 (partial: exactly for the value texts of RFC 4515).** With scope SUBTREE, `find(v)` below `base` with RDN attribute `a` sends a search
of the whole subtree below `base` with the equality filter `a=v` — if and only if `v` is an RFC 4515 value text, i.e. has no `*`, `(`, `)`, NUL or
stray backslash. -/
theorem c46_subtree_partial (c : SearchConn V R) (o : LObj) (base a v : Str) (attrs : List Str) (hu : c.unbound = false)
    (hattrs : checkAttrs c.features attrs = .ok ()) (hc : o.conn = true) (hs : o.scope = .sub) (hdn : o.dn = some base)
    (ha : o.rdnAttr = some a) (ha' : AttrText a) (hv : '=' ∉ v) :
    (∃ rq, findReq c o v (some attrs) = .ok rq ∧ rq.base = base ∧ rq.scope = .sub ∧ rq.filter = .equality a v ∧ rq.limit = 2 ∧ rq.attrs = attrs) ↔
      ValueText v := by
  have hargs : o.findArgs (V := V) v (some attrs) [] =
      .ok { base := base, scope := .sub, filter := some (str "(" ++ (a ++ str "=" ++ v) ++ str ")"), fsyntax := some .standard, attrs := some attrs, limit := 2, kwds := [] } := by
    simp [LObj.findArgs, hc, hs, LObj.fullRdn, hv, ha, hdn]
  have hstd : parseStandard (str "(" ++ (a ++ str "=" ++ v) ++ str ")") = .ok (.equality a v) ↔ ValueText v := by
    rw [parseStandard_iff]
    constructor
    · intro h
      generalize hf : Filter.equality a v = f at h
      generalize hss : str "(" ++ (a ++ str "=" ++ v) ++ str ")" = ss at h
      cases h with
      | @comparison t _ ht =>
        subst hf
        cases ht with
        | equality _ h => exact h
      | and => cases hf
      | or => cases hf
      | not => cases hf
    · intro h; exact .comparison (.equality ha' h)
  constructor
  · rintro ⟨rq, h, h1, h2, h3, _⟩
    simp only [findReq, hargs, ldapSearch, hu, Option.getD_some, Option.isNone_some, Bool.false_eq_true, if_false, parseFilter] at h
    rw [← hstd]
    cases hp : parseStandard (str "(" ++ (a ++ str "=" ++ v) ++ str ")") with
    | error e => rw [hp] at h; simp at h
    | ok f =>
      rw [hp] at h
      simp [hattrs] at h
      rw [← h] at h3
      simp only at h3
      rw [h3]
  · intro h
    have hp := hstd.2 h
    refine ⟨⟨base, .sub, c.dfltDeref, 2, c.dfltTimeout, false, .equality a v, attrs⟩, ?_, rfl, rfl, rfl, rfl, rfl⟩
    simp only [findReq, hargs, ldapSearch, hu, Option.getD_some, Option.isNone_some, Bool.false_eq_true, if_false, parseFilter, hp]
    simp [hattrs]

/-- the characters of an attribute description -/
theorem attrText_chars {a : Str} (h : AttrText a) : ∀ c ∈ a, isNameChar c ∨ c = '.' ∨ c = ';' := by
  obtain ⟨o, opts, rfl, ho, hopts⟩ := h
  intro c hm
  rcases List.mem_append.mp hm with h | h
  · rcases ho with ⟨x, t, rfl, hx, ht⟩ | ⟨x, l, rfl, _, hx, hl⟩
    · rcases List.mem_cons.mp h with rfl | h
      · exact .inl (.inl hx)
      · exact .inl (ht _ h)
    · rcases List.mem_cons.mp h with rfl | h
      · exact .inl (.inr (.inl hx))
      · simp only [List.mem_flatten, List.mem_map] at h
        obtain ⟨_, ⟨b, hb, rfl⟩, h⟩ := h
        simp at h
        rcases h with h | h
        · exact .inr (.inl h)
        · subst h; exact .inl (.inr (.inl (hl _ hb)))
  · simp only [List.mem_flatten, List.mem_map] at h
    obtain ⟨_, ⟨q, hq, rfl⟩, h⟩ := h
    rcases List.mem_cons.mp h with h | h
    · exact .inr (.inr h)
    · exact .inl ((hopts q hq).2 _ h)

theorem oidText_chars {a : Str} (h : OidText a) : ∀ c ∈ a, isNameChar c ∨ c = '.' ∨ c = ';' :=
  attrText_chars ⟨a, [], by simp, h, by simp⟩

theorem not_in_attr {a : Str} (h : AttrText a) : '=' ∉ a ∧ ':' ∉ a ∧ '~' ∉ a ∧ '<' ∉ a ∧ '>' ∉ a := by
  refine ⟨?_, ?_, ?_, ?_, ?_⟩ <;> intro hm <;> have := attrText_chars h _ hm <;> revert this <;>
    simp [isNameChar, isLetter, isDig] <;> decide

theorem not_in_oid {a : Str} (h : OidText a) : '=' ∉ a := (not_in_attr (a := a) ⟨a, [], by simp, h, by simp⟩).1

theorem cut_eq {x y u w : Str} (hx : '=' ∉ x) (hy : '=' ∉ y) (h : x ++ '=' :: u = y ++ '=' :: w) : x = y ∧ u = w := by
  have h1 := (splitFirst_some '=' _ x u).2 ⟨hx, rfl⟩
  have h2 := (splitFirst_some '=' (x ++ '=' :: u) y w).2 ⟨hy, h⟩
  rw [h1] at h2
  simp at h2
  exact h2

/-- **C46.** For *any* string `v` without `=`: the filter `find(v)` builds is refused with `LDAPError`, or it is one test of the RDN attribute:
equality with `v`, presence, or a substrings test. It can never name another attribute or combine tests. -/
theorem c46_one_test (a v : Str) (ha : AttrText a) (f : Filter) (h : parseStandard (str "(" ++ (a ++ str "=" ++ v) ++ str ")") = .ok f) :
    f = .equality a v ∨ (f = .present a ∧ v = str "*") ∨ (∃ subs, f = .substrings a subs ∧ '*' ∈ v) := by
  rw [parseStandard_iff] at h
  obtain ⟨c, a', hca, hc⟩ : ∃ c a', a = c :: a' ∧ (isLetter c ∨ isDig c ∨ c = ':') := by
    obtain ⟨o, opts, rfl, ho, _⟩ := ha
    rcases ho with ⟨c, t, rfl, hc, _⟩ | ⟨c, t, rfl, _, hc, _⟩
    · exact ⟨c, _, rfl, .inl hc⟩
    · exact ⟨c, _, rfl, .inr (.inl hc)⟩
  have hn := head_not_op c hc
  have hna := not_in_attr ha
  have key : ∀ t, AvaText t f → t = a ++ '=' :: v →
      f = .equality a v ∨ (f = .present a ∧ v = str "*") ∨ (∃ subs, f = .substrings a subs ∧ '*' ∈ v) := by
    intro t ht e
    cases ht with
    | @equality b w hb hw =>
      have := cut_eq (not_in_attr hb).1 hna.1 (by simpa using e)
      rw [this.1, this.2]; exact .inl rfl
    | @approx b w hb hw =>
      have := cut_eq (x := b ++ ['~']) (by simp [(not_in_attr hb).1]) hna.1 (by simpa using e)
      exact absurd (by rw [← this.1]; simp) hna.2.2.1
    | @greaterOrEqual b w hb hw =>
      have := cut_eq (x := b ++ ['>']) (by simp [(not_in_attr hb).1]) hna.1 (by simpa using e)
      exact absurd (by rw [← this.1]; simp) hna.2.2.2.2
    | @lessOrEqual b w hb hw =>
      have := cut_eq (x := b ++ ['<']) (by simp [(not_in_attr hb).1]) hna.1 (by simpa using e)
      exact absurd (by rw [← this.1]; simp) hna.2.2.2.1
    | @present b hb =>
      have := cut_eq (not_in_attr hb).1 hna.1 (by simpa using e)
      rw [this.1, ← this.2]; exact .inr (.inl ⟨rfl, rfl⟩)
    | @substrings b i f anys hb _ _ _ _ =>
      have := cut_eq (not_in_attr hb).1 hna.1 (by simpa using e)
      rw [this.1, ← this.2]; exact .inr (.inr ⟨_, rfl, by simp⟩)
    | @extensible rule attr w dn _ hat hru _ _ =>
      exfalso
      have hx : '=' ∉ attr.getD [] ++ ((if dn then str ":dn" else []) ++ ((rule.map (':' :: ·)).getD [] ++ [':'])) := by
        have h1 : '=' ∉ attr.getD [] := by
          cases attr with
          | none => simp
          | some b => exact (not_in_attr (hat b rfl)).1
        have h2 : '=' ∉ (if dn then str ":dn" else []) := by cases dn <;> decide
        have h3 : '=' ∉ (rule.map (':' :: ·)).getD [] := by
          cases rule with
          | none => simp
          | some r => simpa using not_in_oid (hru r rfl)
        simp only [List.mem_append, not_or]
        exact ⟨h1, h2, h3, by decide⟩
      have := cut_eq hx hna.1 (by simpa using e)
      exact hna.2.1 (by rw [← this.1]; simp)
  generalize hs : str "(" ++ (a ++ str "=" ++ v) ++ str ")" = s at h
  subst hca
  cases h with
  | @comparison t _ ht =>
    have : t = c :: a' ++ str "=" ++ v := by
      have := List.append_inj' hs rfl
      exact (List.append_cancel_left this.1).symm
    exact key t ht (by rw [this]; simp)
  | and => simp at hs; exact absurd hs.1 hn.1
  | or => simp at hs; exact absurd hs.1 hn.2.1
  | not => simp at hs; exact absurd hs.1 hn.2.2.1

/-- **C46 (partial).** With scope ONELEVEL, `find(x)` reads exactly the object named `rdn(x)` (see C45 for what that is), whatever its attributes. -/
theorem c46_onelevel_partial (c : SearchConn V R) (o : LObj) (x dn : Str) (attrs : List Str) (hu : c.unbound = false)
    (hattrs : checkAttrs c.features attrs = .ok ()) (hc : o.conn = true) (hs : o.scope = .one) (hd : c.dfltFilter = str "(objectClass=*)")
    (hdn : o.rdn x = .ok dn) :
    ∃ rq, findReq c o x (some attrs) = .ok rq ∧ rq.base = dn ∧ rq.scope = .base ∧ rq.filter = .present (str "objectClass") ∧ rq.limit = 2 := by
  have hp : parseStandard (str "(objectClass=*)") = .ok (.present (str "objectClass")) := by rfl
  refine ⟨⟨dn, .base, c.dfltDeref, 2, c.dfltTimeout, false, .present (str "objectClass"), attrs⟩, ?_, rfl, rfl, rfl, rfl⟩
  simp [findReq, LObj.findArgs, hc, hs, hdn, ldapSearch, hu, hd, parseFilter, hp, hattrs]

/-- **C46.** Nothing is searched when the object has no connection, has scope BASE, an invalid scope, or no RDN attribute for a bare value. -/
theorem c46_refused (o : LObj) (x : Str) (attrs : Option (List Str)) (kw : PDict Str (Controls.Kwd V)) :
    (o.conn = false → o.findArgs x attrs kw = .error .runtimeError) ∧
    (o.conn = true → o.scope = .base → o.findArgs x attrs kw = .error .ldapError) ∧
    (o.conn = true → o.scope = .other → o.findArgs x attrs kw = .error .valueError) ∧
    (o.conn = true → (o.scope = .one ∨ o.scope = .sub) → o.rdnAttr = none → '=' ∉ x → o.findArgs x attrs kw = .error .valueError) := by
  refine ⟨fun h => ?_, fun h h' => ?_, fun h h' => ?_, fun h h' h2 h3 => ?_⟩
  · simp [LObj.findArgs, h]
  · simp [LObj.findArgs, h, h']
  · simp [LObj.findArgs, h, h']
  · rcases h' with h' | h' <;> simp [LObj.findArgs, h, h', LObj.rdn, LObj.fullRdn, h2, h3]

/-- a connection with nothing special -/
def plainConn : SearchConn Unit Unit :=
  ⟨false, 0, 0, true, true, .unified, str "(objectClass=*)", false, [], [], {}⟩

/-- **C46, what is false.** `find('*')` is "any value"; a value with an asterisk is a pattern; a value with a parenthesis is refused; the RFC 4514
escape of a comma is refused; a "RDN" may be a whole compound filter. -/
theorem c46_counterexamples :
    let o : LObj := ⟨some (str "dc=x"), true, CIDict.empty, .sub, some (str "cn")⟩
    (findReq plainConn o (str "*") none).map (·.filter) = .ok (.present (str "cn")) ∧
    (findReq plainConn o (str "a*") none).map (·.filter) = .ok (.substrings (str "cn") [.initial (str "a")]) ∧
    (findReq plainConn o (str "a (b)") none).map (·.filter) = .error .ldapError ∧
    (findReq plainConn o (str "a\\, b") none).map (·.filter) = .error .ldapError ∧
    (findReq plainConn o (str "|(cn=a)(sn=*)") none).map (·.filter) =
      .ok (.or [.equality (str "cn") (str "a"), .present (str "sn")]) := by
  refine ⟨rfl, rfl, rfl, rfl, rfl⟩

/-- Non-vacuity of `c46_subtree_partial`. -/
example : ∃ rq, findReq plainConn ⟨some (str "dc=x"), true, CIDict.empty, .sub, some (str "cn")⟩ (str "John Smith") (some [str "sn"]) = .ok rq ∧
    rq.base = str "dc=x" ∧ rq.filter = .equality (str "cn") (str "John Smith") := ⟨_, rfl, rfl, rfl⟩

/-- **C46, what is false.** Because `find` limits the search to two results, a server that has more than two matches ends with
sizeLimitExceeded (4), and `find` raises a bare `LDAPError` instead of `MultipleSearchResults`; with exactly two it raises the latter. -/
theorem c46_too_many (env : Search.Env V R E) (t : Controls.Target R) (e1 e2 : E) (cs : List Controls.Wire) :
    Search.getObj env false none t [.entry e1 [], .entry e2 [], .done 4 cs []] = some (.error .ldapError) ∧
    Search.getObj env false none t [.entry e1 [], .entry e2 [], .done 0 [] []] = some (.error .multipleResults) := by
  constructor <;> rfl

end find
end Laurelin.Props
