import Verif.Lemmas.SchemaRead
/-! C69: schema specifications are read as what they say. -/
namespace Laurelin.SchemaSpec
open Laurelin Laurelin.Syntax Spec Spec.Abnf

theorem group_cons (n k v : Str) (c : Caps) : group n ((k, v) :: c) = if k = n then some v else group n c := by
  simp only [group, PDict.get?]

theorem group_caps (n : Str) (i : Item) (o : Option Str) (c : Caps) :
    group n (i.caps o ++ c) = if i.name = n then (o <|> group n c) else group n c := by
  cases o with
  | none => simp [Item.caps]
  | some v => simp [Item.caps, group_cons]

/-- the written value against the stated one -/
def Rel {α : Type} (B : α → Language) : Option α → Option Str → Prop
  | none, none => True
  | some a, some v => B a v
  | _, _ => False

theorem part_iff {α : Type} (key nm : Str) (val : Rx) (B : α → Language) (hB : ∀ a v, B a v → val.Lang v) (oa : Option α) (s : Str) :
    Rfc4512.part codeLex key B oa s ↔ ∃ o, Rel B oa o ∧ (Item.kv key nm val).T o s := by
  cases oa with
  | none =>
    simp only [Rfc4512.part]
    constructor
    · intro h; exact ⟨none, trivial, h⟩
    · rintro ⟨o, h1, h2⟩
      cases o with
      | none => exact h2
      | some v => exact h1.elim
  | some a =>
    simp only [Rfc4512.part, cats, Abnf.cat]
    constructor
    · rintro ⟨u, _, rfl, hu, k, _, rfl, hk, w, v, rfl, hw, hv⟩
      rw [show k = key from hk]
      exact ⟨some v, hv, u, w, (SP_iff u).1 hu, (SP_iff w).1 hw, hB a v hv, rfl⟩
    · rintro ⟨o, h1, h2⟩
      cases o with
      | none => exact h1.elim
      | some v =>
        obtain ⟨u, w, hu, hw, _, rfl⟩ := h2
        exact ⟨u, _, rfl, (SP_iff u).2 hu, key, _, rfl, rfl, w, v, rfl, (SP_iff w).2 hw, h1⟩

theorem flag_iff (key nm : Str) (b : Bool) (s : Str) :
    Rfc4512.flag codeLex key b s ↔ ∃ o, o.isSome = b ∧ (Item.flag key nm).T o s := by
  cases b with
  | false =>
    simp only [Rfc4512.flag, Bool.false_eq_true, if_false]
    constructor
    · intro h; exact ⟨none, rfl, h⟩
    · rintro ⟨o, h1, h2⟩
      cases o with
      | none => exact h2
      | some v => cases h1
  | true =>
    simp only [Rfc4512.flag, if_true, Abnf.cat]
    constructor
    · rintro ⟨u, k, rfl, hu, hk⟩
      rw [show k = key from hk]
      exact ⟨some (u ++ key), rfl, u, (SP_iff u).1 hu, rfl, rfl⟩
    · rintro ⟨o, h1, h2⟩
      cases o with
      | none => cases h1
      | some v =>
        obtain ⟨u, hu, _, rfl⟩ := h2
        exact ⟨u, key, rfl, (SP_iff u).2 hu, rfl⟩

theorem choice_iff (keys : List Str) (nm : Str) (o : Option Str) (s : Str) :
    Rfc4512.choice codeLex keys o s ↔ (Item.choice keys nm).T o s := by
  cases o with
  | none => exact Iff.rfl
  | some k =>
    simp only [Rfc4512.choice, Abnf.cat, Rfc4512.exactly]
    constructor
    · rintro ⟨u, v, rfl, hu, rfl, hv⟩; exact ⟨u, (SP_iff u).1 hu, hv, rfl⟩
    · rintro ⟨u, hu, hk, rfl⟩; exact ⟨u, k, rfl, (SP_iff u).2 hu, rfl, hk⟩

theorem sp_nd {a : Str} (h : Rfc4512.SP codeLex a) (nd : ND a) : a = [' '] := by
  obtain ⟨h1, h2⟩ := (SP_iff a).1 h
  cases a with
  | nil => exact absurd rfl h1
  | cons c a => cases a with
    | nil => rw [h2 c (by simp)]
    | cons d a => rw [h2 c (by simp), h2 d (by simp)] at nd; exact absurd rfl (nd [] a)

theorem ext_of {e : Str} (h : extensions.Lang e) : Rfc4512.extension codeLex e := by
  rw [extensions, Rx.lang_opt, Rx.lang_cat] at h
  rcases h with h | h
  · exact Or.inl h
  · simp only [List.map, cats, Abnf.cat, lang_qdstrings, Rx.lang_lit, xstring, Rx.lang_cat, Rx.lang_plus] at h
    obtain ⟨p, _, rfl, hp, _, _, rfl, ⟨x, y, rfl, hx, hy⟩, q, r, rfl, hq, hr⟩ := h
    refine Or.inr ⟨p, _, rfl, ?_, x, y ++ (q ++ r), by simp, hx, y, _, rfl, hy, q, r, rfl, ?_, hr⟩
    · rw [SP_iff, show p = [' '] from hp]; simp [Sp]
    · rw [SP_iff, show q = [' '] from hq]; simp [Sp]

theorem ext_to {e : Str} (h : Rfc4512.extension codeLex e) (nd : ND e) : extensions.Lang e := by
  rw [extensions, Rx.lang_opt, Rx.lang_cat]
  rcases h with h | ⟨p, _, rfl, hp, x, _, rfl, hx, y, _, rfl, hy, q, r, rfl, hq, hr⟩
  · exact Or.inl h
  · right
    simp only [List.map, cats, Abnf.cat, lang_qdstrings, Rx.lang_lit, xstring, Rx.lang_cat, Rx.lang_plus]
    refine ⟨p, _, rfl, ?_, x ++ y, q ++ r, by simp, ⟨x, y, rfl, hx, hy⟩, q, r, rfl, ?_, hr⟩
    · exact sp_nd hp (ND.sub (x := []) nd rfl)
    · exact sp_nd hq (ND.sub (x := p ++ (x ++ y)) (z := r) nd (by simp))

theorem TL_cons (i : Item) (l : List Item) (os : List (Option Str)) (w : Str) :
    TL (i :: l) os w ↔ ∃ o os', os = o :: os' ∧ ∃ u v, w = u ++ v ∧ i.T o u ∧ TL l os' v := by
  cases os with
  | nil => simp [TL]
  | cons o os =>
    constructor
    · intro h; exact ⟨o, os, rfl, h⟩
    · rintro ⟨_, _, h, h'⟩; cases h; exact h'

theorem TL_nil (os : List (Option Str)) (w : Str) : TL [] os w ↔ os = [] ∧ w = [] := by
  cases os <;> simp [TL]

/-- a stated value is part of the text -/
theorem T_sub {i : Item} {v w : Str} (h : i.T (some v) w) : ∃ x y, w = x ++ (v ++ y) := by
  cases i with
  | kv key name val => obtain ⟨a, b, _, _, _, rfl⟩ := h; exact ⟨a ++ (key ++ b), [], by simp⟩
  | flag key name => obtain ⟨a, _, rfl, rfl⟩ := h; exact ⟨[], [], by simp⟩
  | choice keys name => obtain ⟨a, _, _, rfl⟩ := h; exact ⟨a, [], by simp⟩

theorem TL_sub {l : List Item} {os : List (Option Str)} {v w : Str} (h : TL l os w) (hv : some v ∈ os) : ∃ x y, w = x ++ (v ++ y) := by
  induction l generalizing os w with
  | nil => rw [((TL_nil os w).1 h).1] at hv; cases hv
  | cons i l ih =>
    obtain ⟨o, os', rfl, u, u', rfl, h1, h2⟩ := (TL_cons _ _ _ _).1 h
    rcases List.mem_cons.1 hv with rfl | hv
    · obtain ⟨x, y, rfl⟩ := T_sub h1
      exact ⟨x, y ++ u', by simp⟩
    · obtain ⟨x, y, rfl⟩ := ih h2 hv
      exact ⟨u ++ x, y, by simp⟩

theorem Match_nd {items : List Item} {o : Str} {os : List (Option Str)} {s : Str} (h : Match items o os s) (nd : ND s) :
    ∀ v, some v ∈ os → ND v := by
  obtain ⟨a, w, t, _, _, hw, _, rfl⟩ := h
  intro v hv
  obtain ⟨x, y, rfl⟩ := TL_sub hw hv
  exact ND.sub (x := '(' :: (a ++ (o ++ x))) (z := y ++ t) nd (by simp)

def listOpt (l : List Str) : Option (List Str) := if l = [] then none else some l
def boolOpt (b : Bool) : Option Unit := if b then some () else none

theorem Rel_some {α : Type} {B : α → Language} (o : Option Str) (h : ∀ v, o = some v → ∃ a, B a v) : ∃ oa, Rel B oa o := by
  cases o with
  | none => exact ⟨none, trivial⟩
  | some v => obtain ⟨a, ha⟩ := h v rfl; exact ⟨some a, ha⟩

theorem T_val {key nm : Str} {val : Rx} {v w : Str} (h : (Item.kv key nm val).T (some v) w) : val.Lang v := by
  obtain ⟨_, _, _, _, h, _⟩ := h; exact h

theorem Rel_exactly {L : Language} {oa : Option Str} {o : Option Str} (h : Rel (fun a => Rfc4512.exactly a L) oa o) :
    oa = o ∧ ∀ v, o = some v → L v := by
  cases oa <;> cases o <;> simp_all [Rel, Rfc4512.exactly]

/-! ### Attribute types -/

/-- what the groups captured, against what the description says -/
def RelAT (d : Rfc4512.AttributeType) (os : List (Option Str)) : Prop :=
  ∃ o1 o2 o3 o4 o5 o6 o7 o8 o9 o10 o11 o12, os = [o1, o2, o3, o4, o5, o6, o7, o8, o9, o10, o11, o12] ∧
    Rel (Rfc4512.qdescrs codeLex) (listOpt d.names) o1 ∧ Rel (fun _ => Rfc4512.qdstring) (boolOpt d.hasDesc) o2 ∧ o3.isSome = d.obsolete ∧
    Rel (fun o => Rfc4512.exactly o (Rfc4512.oid codeLex)) d.sup o4 ∧ Rel (fun o => Rfc4512.exactly o (Rfc4512.oid codeLex)) d.equality o5 ∧
    Rel (fun o => Rfc4512.exactly o (Rfc4512.oid codeLex)) d.ordering o6 ∧ Rel (fun o => Rfc4512.exactly o (Rfc4512.oid codeLex)) d.substr o7 ∧
    Rel (Rfc4512.noidlen codeLex) d.syntaxLen o8 ∧ o9.isSome = d.singleValue ∧ o10.isSome = d.collective ∧ o11.isSome = d.noUserMod ∧
    Rel (fun u => Rfc4512.exactly u (oneOf Rfc4512.usages)) d.usage o12

theorem val_names (l : List Str) (v : Str) (h : Rfc4512.qdescrs codeLex l v) : qdescrs.Lang v := (lang_qdescrs v).2 ⟨l, h⟩
theorem val_desc (_ : Unit) (v : Str) (h : Rfc4512.qdstring v) : qdstring.Lang v := by rw [lang_qdstring]; exact h
theorem val_oid (o v : Str) (h : Rfc4512.exactly o (Rfc4512.oid codeLex) v) : oid.Lang v := by rw [lang_oid]; obtain ⟨rfl, h⟩ := h; exact h
theorem val_noidlen (p : Str × Option Nat) (v : Str) (h : Rfc4512.noidlen codeLex p v) : noidlen.Lang v := (lang_noidlen v).2 ⟨p, h⟩
theorem val_usage (o v : Str) (h : Rfc4512.exactly o (oneOf Rfc4512.usages) v) :
    (Rx.any ([str "userApplications", str "directoryOperation", str "distributedOperation", str "dSAOperation"].map .lit)).Lang v := by
  rw [Rx.lang_any_lit]; obtain ⟨rfl, h⟩ := h; exact h
theorem val_oids (l : List Str) (v : Str) (h : Rfc4512.oids codeLex l v) : oids.Lang v := (lang_oids v).2 ⟨l, h⟩

theorem at_complete {d : Rfc4512.AttributeType} {t : Str} (h : Rfc4512.attributeType codeLex d t) (nd : ND t) :
    ∃ os, RelAT d os ∧ Match atItems d.oid os t := by
  simp only [Rfc4512.attributeType, cats, Abnf.cat, Rfc4512.listPart] at h
  obtain ⟨p, _, rfl, hp, a, _, rfl, ha, _, _, rfl, ⟨rfl, ho⟩, w1, _, rfl, h1, w2, _, rfl, h2, w3, _, rfl, h3, w4, _, rfl, h4, w5, _, rfl, h5,
    w6, _, rfl, h6, w7, _, rfl, h7, w8, _, rfl, h8, w9, _, rfl, h9, w10, _, rfl, h10, w11, _, rfl, h11, w12, _, rfl, h12, e, _, rfl, he, b, q, rfl, hb, hq⟩ := h
  rw [show p = ['('] from hp, show q = [')'] from hq] at nd ⊢
  obtain ⟨o1, r1, t1⟩ := (part_iff _ (str "name") _ _ val_names _ _).1 h1
  obtain ⟨o2, r2, t2⟩ := (part_iff _ (str "desc") _ _ val_desc _ _).1 h2
  obtain ⟨o3, r3, t3⟩ := (flag_iff _ (str "obsolete") _ _).1 h3
  obtain ⟨o4, r4, t4⟩ := (part_iff _ (str "supertype") _ _ val_oid _ _).1 h4
  obtain ⟨o5, r5, t5⟩ := (part_iff _ (str "equality") _ _ val_oid _ _).1 h5
  obtain ⟨o6, r6, t6⟩ := (part_iff _ (str "ordering") _ _ val_oid _ _).1 h6
  obtain ⟨o7, r7, t7⟩ := (part_iff _ (str "substr") _ _ val_oid _ _).1 h7
  obtain ⟨o8, r8, t8⟩ := (part_iff _ (str "syntax") _ _ val_noidlen _ _).1 h8
  obtain ⟨o9, r9, t9⟩ := (flag_iff _ (str "single_value") _ _).1 h9
  obtain ⟨o10, r10, t10⟩ := (flag_iff _ (str "collective") _ _).1 h10
  obtain ⟨o11, r11, t11⟩ := (flag_iff _ (str "no_user_mod") _ _).1 h11
  obtain ⟨o12, r12, t12⟩ := (part_iff _ (str "usage") _ _ val_usage _ _).1 h12
  refine ⟨[o1, o2, o3, o4, o5, o6, o7, o8, o9, o10, o11, o12],
    ⟨o1, o2, o3, o4, o5, o6, o7, o8, o9, o10, o11, o12, rfl, r1, r2, r3, r4, r5, r6, r7, r8, r9, r10, r11, r12⟩, ?_⟩
  have hext : extensions.Lang e := ext_to he (ND.sub (z := b ++ [')'])
    (x := ['('] ++ (a ++ (d.oid ++ (w1 ++ (w2 ++ (w3 ++ (w4 ++ (w5 ++ (w6 ++ (w7 ++ (w8 ++ (w9 ++ (w10 ++ (w11 ++ w12)))))))))))))) nd (by simp))
  refine ⟨a, w1 ++ (w2 ++ (w3 ++ (w4 ++ (w5 ++ (w6 ++ (w7 ++ (w8 ++ (w9 ++ (w10 ++ (w11 ++ w12)))))))))), e ++ (b ++ [')']), (WSP_iff a).1 ha, ?_, ?_,
    ⟨e, b, hext, (WSP_iff b).1 hb, rfl⟩, by simp⟩
  · rw [lang_numericoid]; exact ho
  · exact ⟨w1, _, rfl, t1, w2, _, rfl, t2, w3, _, rfl, t3, w4, _, rfl, t4, w5, _, rfl, t5, w6, _, rfl, t6, w7, _, rfl, t7, w8, _, rfl, t8, w9, _, rfl, t9,
      w10, _, rfl, t10, w11, _, rfl, t11, w12, [], by simp, t12, rfl⟩

theorem at_sound {o : Str} {os : List (Option Str)} {t : Str} (h : Match atItems o os t) :
    ∃ d : Rfc4512.AttributeType, d.oid = o ∧ RelAT d os ∧ Rfc4512.attributeType codeLex d t := by
  obtain ⟨a, w, t, ha, ho, hw, ⟨e, b, he, hb, rfl⟩, rfl⟩ := h
  simp only [atItems, TL_cons, TL_nil] at hw
  obtain ⟨o1, _, rfl, w1, _, rfl, t1, o2, _, rfl, w2, _, rfl, t2, o3, _, rfl, w3, _, rfl, t3, o4, _, rfl, w4, _, rfl, t4, o5, _, rfl, w5, _, rfl, t5,
    o6, _, rfl, w6, _, rfl, t6, o7, _, rfl, w7, _, rfl, t7, o8, _, rfl, w8, _, rfl, t8, o9, _, rfl, w9, _, rfl, t9, o10, _, rfl, w10, _, rfl, t10,
    o11, _, rfl, w11, _, rfl, t11, o12, _, rfl, w12, _, rfl, t12, rfl, rfl⟩ := hw
  obtain ⟨names, r1⟩ : ∃ names, Rel (Rfc4512.qdescrs codeLex) (listOpt names) o1 := by
    cases o1 with
    | none => exact ⟨[], trivial⟩
    | some v =>
      obtain ⟨l, hl⟩ := (lang_qdescrs v).1 (T_val t1)
      refine ⟨l, ?_⟩
      cases l with
      | nil => exact hl.elim
      | cons n l => exact hl
  obtain ⟨hasDesc, r2⟩ : ∃ b, Rel (fun _ => Rfc4512.qdstring) (boolOpt b) o2 := by
    cases o2 with
    | none => exact ⟨false, trivial⟩
    | some v => exact ⟨true, by have := T_val t2; rw [lang_qdstring] at this; exact this⟩
  have oidRel : ∀ {key nm : Str} {o : Option Str} {w : Str}, (Item.kv key nm oid).T o w → Rel (fun o => Rfc4512.exactly o (Rfc4512.oid codeLex)) o o := by
    intro key nm o w h
    cases o with
    | none => trivial
    | some v => have := T_val h; rw [lang_oid] at this; exact ⟨rfl, this⟩
  obtain ⟨syn, r8⟩ : ∃ p, Rel (Rfc4512.noidlen codeLex) p o8 := Rel_some o8 (fun v hv => by subst hv; exact (lang_noidlen v).1 (T_val t8))
  have r12 : Rel (fun u => Rfc4512.exactly u (oneOf Rfc4512.usages)) o12 o12 := by
    cases o12 with
    | none => trivial
    | some v => have := T_val t12; rw [Rx.lang_any_lit] at this; exact ⟨rfl, this⟩
  refine ⟨⟨o, names, hasDesc, o3.isSome, o4, o5, o6, o7, syn, o9.isSome, o10.isSome, o11.isSome, o12⟩, rfl,
    ⟨o1, o2, o3, o4, o5, o6, o7, o8, o9, o10, o11, o12, rfl, r1, r2, rfl, oidRel t4, oidRel t5, oidRel t6, oidRel t7, r8, rfl, rfl, rfl, r12⟩, ?_⟩
  rw [lang_numericoid] at ho
  exact ⟨['('], _, rfl, rfl, a, _, rfl, (WSP_iff a).2 ha, o, w1 ++ (w2 ++ (w3 ++ (w4 ++ (w5 ++ (w6 ++ (w7 ++ (w8 ++ (w9 ++ (w10 ++ (w11 ++ (w12 ++ (e ++ (b ++ [')']))))))))))))), by simp, ⟨rfl, ho⟩,
    w1, _, rfl, (part_iff _ _ _ _ val_names _ _).2 ⟨o1, r1, t1⟩, w2, _, rfl, (part_iff _ _ _ _ val_desc _ _).2 ⟨o2, r2, t2⟩,
    w3, _, rfl, (flag_iff _ _ _ _).2 ⟨o3, rfl, t3⟩, w4, _, rfl, (part_iff _ _ _ _ val_oid _ _).2 ⟨o4, oidRel t4, t4⟩,
    w5, _, rfl, (part_iff _ _ _ _ val_oid _ _).2 ⟨o5, oidRel t5, t5⟩, w6, _, rfl, (part_iff _ _ _ _ val_oid _ _).2 ⟨o6, oidRel t6, t6⟩,
    w7, _, rfl, (part_iff _ _ _ _ val_oid _ _).2 ⟨o7, oidRel t7, t7⟩, w8, _, rfl, (part_iff _ _ _ _ val_noidlen _ _).2 ⟨o8, r8, t8⟩,
    w9, _, rfl, (flag_iff _ _ _ _).2 ⟨o9, rfl, t9⟩, w10, _, rfl, (flag_iff _ _ _ _).2 ⟨o10, rfl, t10⟩, w11, _, rfl, (flag_iff _ _ _ _).2 ⟨o11, rfl, t11⟩,
    w12, _, rfl, (part_iff _ _ _ _ val_usage _ _).2 ⟨o12, r12, t12⟩, e, _, rfl, ext_of he, b, [')'], rfl, (WSP_iff b).2 hb, rfl⟩

/-- A property as it ends up on the instance: stated; or the default, without a supertype; or not set, so that it is taken from the supertype. -/
def stated {α : Type} (d : Rfc4512.AttributeType) (x : Option α) (default : α) : Option α :=
  match x, d.sup with
  | some v, _ => some v
  | none, none => some default
  | none, some _ => none

/-- What an attribute type description means for the instance. -/
def saysAT (d : Rfc4512.AttributeType) : ATFields where
  oid := d.oid
  names := d.names
  supertype := d.sup
  equalityOid := stated d (d.equality.map some) none
  syntaxOid := stated d (d.syntaxLen.map (fun p => some p.1)) none
  syntaxLength := stated d (d.syntaxLen.map (·.2)) none
  obsolete := stated d (if d.obsolete then some true else none) false
  singleValue := stated d (if d.singleValue then some true else none) false
  collective := stated d (if d.collective then some true else none) false
  noUserMod := stated d (if d.noUserMod then some true else none) false
  usage := stated d d.usage (str "userApplications")

theorem ownOr_stated {α : Type} (d : Rfc4512.AttributeType) (x : Option α) (dflt : α) : ownOr x d.sup dflt = stated d x dflt := by
  cases x <;> cases h : d.sup <;> simp [ownOr, stated, h]

theorem T_flag_ne {key nm : Str} {o : Option Str} {w : Str} (h : (Item.flag key nm).T o w) :
    o.map (fun x => decide (x ≠ [])) = if o.isSome then some true else none := by
  cases o with
  | none => rfl
  | some v =>
    obtain ⟨a, ha, rfl, rfl⟩ := h
    have : a ++ key ≠ [] := by simp [ha.1]
    simp [this]

theorem at_fields {d : Rfc4512.AttributeType} {os : List (Option Str)} {t : Str} (r : RelAT d os) (hm : Match atItems d.oid os t) (nd : ND t) :
    attributeTypeOf ((str "oid", d.oid) :: capsL atItems os)
      = if d.names = [] then .error .ldapSchema else .ok (saysAT d) := by
  have ndv := Match_nd hm nd
  obtain ⟨a, w, t, _, _, hw, _, _⟩ := hm
  obtain ⟨o1, o2, o3, o4, o5, o6, o7, o8, o9, o10, o11, o12, rfl, r1, r2, r3, r4, r5, r6, r7, r8, r9, r10, r11, r12⟩ := r
  simp only [atItems, TL] at hw
  obtain ⟨w1, _, rfl, t1, w2, _, rfl, t2, w3, _, rfl, t3, w4, _, rfl, t4, w5, _, rfl, t5, w6, _, rfl, t6, w7, _, rfl, t7, w8, _, rfl, t8, w9, _, rfl, t9,
    w10, _, rfl, t10, w11, _, rfl, t11, w12, _, rfl, t12, _⟩ := hw
  have g0 : group (str "oid") ((str "oid", d.oid) :: capsL atItems [o1, o2, o3, o4, o5, o6, o7, o8, o9, o10, o11, o12]) = some d.oid := by
    rw [group_cons, if_pos rfl]
  have g : ∀ n, group n ((str "oid", d.oid) :: capsL atItems [o1, o2, o3, o4, o5, o6, o7, o8, o9, o10, o11, o12]) =
      if str "oid" = n then some d.oid else if str "name" = n then o1 else if str "desc" = n then o2 else if str "obsolete" = n then o3
      else if str "supertype" = n then o4 else if str "equality" = n then o5 else if str "ordering" = n then o6 else if str "substr" = n then o7
      else if str "syntax" = n then o8 else if str "single_value" = n then o9 else if str "collective" = n then o10
      else if str "no_user_mod" = n then o11 else if str "usage" = n then o12 else none := by
    intro n
    simp only [atItems, capsL, group_cons, group_caps, Item.name]
    have gn : group n [] = none := rfl
    rw [gn]
    by_cases e1 : str "name" = n
    · subst e1; simp
    by_cases e2 : str "desc" = n
    · subst e2; simp
    by_cases e3 : str "obsolete" = n
    · subst e3; simp
    by_cases e4 : str "supertype" = n
    · subst e4; simp
    by_cases e5 : str "equality" = n
    · subst e5; simp
    by_cases e6 : str "ordering" = n
    · subst e6; simp
    by_cases e7 : str "substr" = n
    · subst e7; simp
    by_cases e8 : str "syntax" = n
    · subst e8; simp
    by_cases e9 : str "single_value" = n
    · subst e9; simp
    by_cases e10 : str "collective" = n
    · subst e10; simp
    by_cases e11 : str "no_user_mod" = n
    · subst e11; simp
    by_cases e12 : str "usage" = n
    · subst e12; simp
    simp [e1, e2, e3, e4, e5, e6, e7, e8, e9, e10, e11, e12]
  have g1 := g (str "name")
  have g3 := g (str "obsolete")
  have g4 := g (str "supertype")
  have g5 := g (str "equality")
  have g8 := g (str "syntax")
  have g9 := g (str "single_value")
  have g10 := g (str "collective")
  have g11 := g (str "no_user_mod")
  have g12 := g (str "usage")
  simp at g1 g3 g4 g5 g8 g9 g10 g11 g12
  simp only [attributeTypeOf, g0, g1, g3, g4, g5, g8, g9, g10, g11, g12]
  have en : parseQdescrs o1 = d.names := by
    unfold listOpt at r1
    by_cases hn : d.names = []
    · rw [if_pos hn] at r1
      cases o1 with
      | none => rw [hn]; rfl
      | some v => exact r1.elim
    · rw [if_neg hn] at r1
      cases o1 with
      | none => exact r1.elim
      | some v => exact parseQdescrs_eq r1 (ndv v (by simp))
  obtain ⟨es, hs⟩ := Rel_exactly r4
  have es' : o4.map (pyStrip (inClass pySpace)) = d.sup := by
    rw [es]
    cases o4 with
    | none => rfl
    | some v => simp only [Option.map, strip_oid (hs v rfl)]
  have esy : o8.map syntaxParts = d.syntaxLen := by
    cases h8 : d.syntaxLen <;> cases o8 <;> rw [h8] at r8
    · rfl
    · exact r8.elim
    · exact r8.elim
    · simp only [Option.map, syntaxParts_eq r8]
  rw [en, es', esy, ← (Rel_exactly r5).1, ← (Rel_exactly r12).1]
  simp only [ownOr_stated, T_flag_ne t3, T_flag_ne t9, T_flag_ne t10, T_flag_ne t11, r3, r9, r10, r11]
  rfl

theorem at_all (s : Str) : attributeType s =
    match (description atItems).matchAnchored (collapse s) with
    | none => .error .ldapSchema
    | some m => attributeTypeOf m := rfl

/-! ### Object classes -/

def RelOC (d : Rfc4512.ObjectClass) (os : List (Option Str)) : Prop :=
  ∃ o1 o2 o3 o4 o6 o7, os = [o1, o2, o3, o4, d.kind, o6, o7] ∧
    Rel (Rfc4512.qdescrs codeLex) (listOpt d.names) o1 ∧ Rel (fun _ => Rfc4512.qdstring) (boolOpt d.hasDesc) o2 ∧ o3.isSome = d.obsolete ∧
    Rel (Rfc4512.oids codeLex) (listOpt d.sups) o4 ∧ Rel (Rfc4512.oids codeLex) (listOpt d.must) o6 ∧ Rel (Rfc4512.oids codeLex) (listOpt d.may) o7

theorem oc_complete {d : Rfc4512.ObjectClass} {t : Str} (h : Rfc4512.objectClass codeLex d t) (nd : ND t) :
    ∃ os, RelOC d os ∧ Match ocItems d.oid os t := by
  simp only [Rfc4512.objectClass, cats, Abnf.cat, Rfc4512.listPart] at h
  obtain ⟨p, _, rfl, hp, a, _, rfl, ha, _, _, rfl, ⟨rfl, ho⟩, w1, _, rfl, h1, w2, _, rfl, h2, w3, _, rfl, h3, w4, _, rfl, h4, w5, _, rfl, h5,
    w6, _, rfl, h6, w7, _, rfl, h7, e, _, rfl, he, b, q, rfl, hb, hq⟩ := h
  rw [show p = ['('] from hp, show q = [')'] from hq] at nd ⊢
  obtain ⟨o1, r1, t1⟩ := (part_iff _ (str "name") _ _ val_names _ _).1 h1
  obtain ⟨o2, r2, t2⟩ := (part_iff _ (str "desc") _ _ val_desc _ _).1 h2
  obtain ⟨o3, r3, t3⟩ := (flag_iff _ (str "obsolete") _ _).1 h3
  obtain ⟨o4, r4, t4⟩ := (part_iff _ (str "superclass") _ _ val_oids _ _).1 h4
  have t5 := (choice_iff _ (str "kind") _ _).1 h5
  obtain ⟨o6, r6, t6⟩ := (part_iff _ (str "must") _ _ val_oids _ _).1 h6
  obtain ⟨o7, r7, t7⟩ := (part_iff _ (str "may") _ _ val_oids _ _).1 h7
  refine ⟨[o1, o2, o3, o4, d.kind, o6, o7], ⟨o1, o2, o3, o4, o6, o7, rfl, r1, r2, r3, r4, r6, r7⟩, ?_⟩
  have hext : extensions.Lang e := ext_to he (ND.sub (z := b ++ [')'])
    (x := ['('] ++ (a ++ (d.oid ++ (w1 ++ (w2 ++ (w3 ++ (w4 ++ (w5 ++ (w6 ++ w7))))))))) nd (by simp))
  refine ⟨a, w1 ++ (w2 ++ (w3 ++ (w4 ++ (w5 ++ (w6 ++ w7))))), e ++ (b ++ [')']), (WSP_iff a).1 ha, ?_, ?_,
    ⟨e, b, hext, (WSP_iff b).1 hb, rfl⟩, by simp⟩
  · rw [lang_numericoid]; exact ho
  · exact ⟨w1, _, rfl, t1, w2, _, rfl, t2, w3, _, rfl, t3, w4, _, rfl, t4, w5, _, rfl, t5, w6, _, rfl, t6, w7, [], by simp, t7, rfl⟩

theorem oidsRel {key nm : Str} {o : Option Str} {w : Str} (h : (Item.kv key nm oids).T o w) :
    ∃ l, Rel (Rfc4512.oids codeLex) (listOpt l) o := by
  cases o with
  | none => exact ⟨[], trivial⟩
  | some v =>
    obtain ⟨l, hl⟩ := (lang_oids v).1 (T_val h)
    refine ⟨l, ?_⟩
    cases l with
    | nil => exact hl.elim
    | cons n l => exact hl

theorem oc_sound {o : Str} {os : List (Option Str)} {t : Str} (h : Match ocItems o os t) :
    ∃ d : Rfc4512.ObjectClass, d.oid = o ∧ RelOC d os ∧ Rfc4512.objectClass codeLex d t := by
  obtain ⟨a, w, t, ha, ho, hw, ⟨e, b, he, hb, rfl⟩, rfl⟩ := h
  simp only [ocItems, TL_cons, TL_nil] at hw
  obtain ⟨o1, _, rfl, w1, _, rfl, t1, o2, _, rfl, w2, _, rfl, t2, o3, _, rfl, w3, _, rfl, t3, o4, _, rfl, w4, _, rfl, t4, o5, _, rfl, w5, _, rfl, t5,
    o6, _, rfl, w6, _, rfl, t6, o7, _, rfl, w7, _, rfl, t7, rfl, rfl⟩ := hw
  obtain ⟨names, r1⟩ : ∃ names, Rel (Rfc4512.qdescrs codeLex) (listOpt names) o1 := by
    cases o1 with
    | none => exact ⟨[], trivial⟩
    | some v =>
      obtain ⟨l, hl⟩ := (lang_qdescrs v).1 (T_val t1)
      refine ⟨l, ?_⟩
      cases l with
      | nil => exact hl.elim
      | cons n l => exact hl
  obtain ⟨hasDesc, r2⟩ : ∃ b, Rel (fun _ => Rfc4512.qdstring) (boolOpt b) o2 := by
    cases o2 with
    | none => exact ⟨false, trivial⟩
    | some v => exact ⟨true, by have := T_val t2; rw [lang_qdstring] at this; exact this⟩
  obtain ⟨sups, r4⟩ := oidsRel t4
  obtain ⟨must, r6⟩ := oidsRel t6
  obtain ⟨may, r7⟩ := oidsRel t7
  refine ⟨⟨o, names, hasDesc, o3.isSome, sups, o5, must, may⟩, rfl, ⟨o1, o2, o3, o4, o6, o7, rfl, r1, r2, rfl, r4, r6, r7⟩, ?_⟩
  rw [lang_numericoid] at ho
  exact ⟨['('], _, rfl, rfl, a, _, rfl, (WSP_iff a).2 ha, o, w1 ++ (w2 ++ (w3 ++ (w4 ++ (w5 ++ (w6 ++ (w7 ++ (e ++ (b ++ [')'])))))))), by simp, ⟨rfl, ho⟩,
    w1, _, rfl, (part_iff _ _ _ _ val_names _ _).2 ⟨o1, r1, t1⟩, w2, _, rfl, (part_iff _ _ _ _ val_desc _ _).2 ⟨o2, r2, t2⟩,
    w3, _, rfl, (flag_iff _ _ _ _).2 ⟨o3, rfl, t3⟩, w4, _, rfl, (part_iff _ _ _ _ val_oids _ _).2 ⟨o4, r4, t4⟩,
    w5, _, rfl, (choice_iff _ _ _ _).2 t5, w6, _, rfl, (part_iff _ _ _ _ val_oids _ _).2 ⟨o6, r6, t6⟩,
    w7, _, rfl, (part_iff _ _ _ _ val_oids _ _).2 ⟨o7, r7, t7⟩, e, _, rfl, ext_of he, b, [')'], rfl, (WSP_iff b).2 hb, rfl⟩

/-- What an attribute listed by an object class stands for: a name for itself, an OID for the names of the attribute type registered under it;
an unregistered OID is dropped. -/
def expandAttr {E : Type} (types : Schema.Reg E) (a : Str) : List Str :=
  if (a.head?.map Rfc4512.isDigit).getD false then
    match types.oids.get? a with
    | some e => e.names
    | none => []
  else [a]

/-- What an object class description means for the instance. -/
def saysOC {E : Type} (types : Schema.Reg E) (d : Rfc4512.ObjectClass) : OCFields where
  oid := d.oid
  names := d.names
  superclasses := d.sups
  kind := d.kind.getD (str "STRUCTURAL")
  obsolete := d.obsolete
  must := d.must.flatMap (expandAttr types)
  may := d.may.flatMap (expandAttr types)

theorem attrNames_eq {E : Type} (lower : Str → Str) (types : Schema.Reg E) (a : Str) (h : a ≠ []) :
    attrNames lower types a = .ok (expandAttr types a) := by
  cases a with
  | nil => exact absurd rfl h
  | cons c a =>
    cases hc : (decide ('0' ≤ c) && decide (c ≤ '9')) with
    | false =>
      have e1 : Schema.numeric (c :: a) = .ok false := by simp only [Schema.numeric, hc]
      have e2 : ((c :: a).head?.map Rfc4512.isDigit).getD false = false := by simp only [List.head?, Option.map, Option.getD, Rfc4512.isDigit, hc]
      simp only [attrNames, e1, expandAttr, e2, Bool.false_eq_true, if_false]
    | true =>
      have e1 : Schema.numeric (c :: a) = .ok true := by simp only [Schema.numeric, hc]
      have e2 : ((c :: a).head?.map Rfc4512.isDigit).getD false = true := by simp only [List.head?, Option.map, Option.getD, Rfc4512.isDigit, hc]
      simp only [attrNames, e1, expandAttr, e2, if_true, Schema.Reg.find]
      cases types.oids.get? (c :: a) with
      | none => rfl
      | some e => rfl

theorem parseAttrs_eq {E : Type} (lower : Str → Str) (types : Schema.Reg E) (l : List Str) (h : ∀ a ∈ l, a ≠ []) :
    parseAttrs lower types l = .ok (l.flatMap (expandAttr types)) := by
  induction l with
  | nil => rfl
  | cons a l ih =>
    rw [parseAttrs, ih (fun b hb => h b (by simp [hb])), List.flatMap_cons, attrNames_eq lower types a (h a (by simp))]
    rfl

theorem moreOids_mem {l : List Str} {r : Str} (h : Rfc4512.moreOids codeLex l r) : ∀ o ∈ l, o ≠ [] := by
  induction l generalizing r with
  | nil => simp
  | cons n l ih =>
    obtain ⟨b, _, rfl, hb, p, _, rfl, hp, c, _, rfl, hc, _, r', rfl, ⟨rfl, ho'⟩, hr'⟩ := h
    intro o ho
    rcases List.mem_cons.1 ho with rfl | ho
    · exact (oid_chars ho').1
    · exact ih hr' o ho

theorem oids_mem {l : List Str} {v : Str} (h : Rfc4512.oids codeLex l v) : ∀ o ∈ l, o ≠ [] := by
  cases l with
  | nil => simp
  | cons n l =>
    rcases h with ⟨rfl, rfl, h⟩ | ⟨p, _, rfl, hp, a, _, rfl, ha, _, _, rfl, ⟨rfl, hn⟩, r, _, rfl, hr, b, z, rfl, hb, hz⟩
    · intro o ho; rw [List.mem_singleton.1 ho]; exact (oid_chars h).1
    · intro o ho
      rcases List.mem_cons.1 ho with rfl | ho
      · exact (oid_chars hn).1
      · exact moreOids_mem hr o ho

theorem Rel_oids {l : List Str} {o : Option Str} (h : Rel (Rfc4512.oids codeLex) (listOpt l) o) : parseOids o = l ∧ ∀ x ∈ l, x ≠ [] := by
  unfold listOpt at h
  by_cases hn : l = []
  · rw [if_pos hn] at h
    cases o with
    | none => rw [hn]; exact ⟨rfl, by simp⟩
    | some v => exact h.elim
  · rw [if_neg hn] at h
    cases o with
    | none => exact h.elim
    | some v => exact ⟨parseOids_eq h, oids_mem h⟩

theorem oc_fields {E : Type} (lower : Str → Str) (types : Schema.Reg E) {d : Rfc4512.ObjectClass} {os : List (Option Str)} {t : Str} (r : RelOC d os)
    (hm : Match ocItems d.oid os t) (nd : ND t) :
    objectClassOf lower types ((str "oid", d.oid) :: capsL ocItems os) = .ok (saysOC types d) := by
  have ndv := Match_nd hm nd
  obtain ⟨a, w, t, _, _, hw, _, _⟩ := hm
  obtain ⟨o1, o2, o3, o4, o6, o7, rfl, r1, r2, r3, r4, r6, r7⟩ := r
  simp only [ocItems, TL] at hw
  obtain ⟨w1, _, rfl, t1, w2, _, rfl, t2, w3, _, rfl, t3, w4, _, rfl, t4, w5, _, rfl, t5, w6, _, rfl, t6, w7, _, rfl, t7, _⟩ := hw
  have g0 : group (str "oid") ((str "oid", d.oid) :: capsL ocItems [o1, o2, o3, o4, d.kind, o6, o7]) = some d.oid := by
    rw [group_cons, if_pos rfl]
  have g : ∀ n, group n ((str "oid", d.oid) :: capsL ocItems [o1, o2, o3, o4, d.kind, o6, o7]) =
      if str "oid" = n then some d.oid else if str "name" = n then o1 else if str "desc" = n then o2 else if str "obsolete" = n then o3
      else if str "superclass" = n then o4 else if str "kind" = n then d.kind else if str "must" = n then o6 else if str "may" = n then o7 else none := by
    intro n
    simp only [ocItems, capsL, group_cons, group_caps, Item.name]
    have gn : group n [] = none := rfl
    rw [gn]
    by_cases e1 : str "name" = n
    · subst e1; simp
    by_cases e2 : str "desc" = n
    · subst e2; simp
    by_cases e3 : str "obsolete" = n
    · subst e3; simp
    by_cases e4 : str "superclass" = n
    · subst e4; simp
    by_cases e5 : str "kind" = n
    · subst e5; simp
    by_cases e6 : str "must" = n
    · subst e6; simp
    by_cases e7 : str "may" = n
    · subst e7; simp
    simp [e1, e2, e3, e4, e5, e6, e7]
  have g1 := g (str "name")
  have g3 := g (str "obsolete")
  have g4 := g (str "superclass")
  have g5 := g (str "kind")
  have g6 := g (str "must")
  have g7 := g (str "may")
  simp at g1 g3 g4 g5 g6 g7
  simp only [objectClassOf, g0, g1, g3, g4, g5, g6, g7]
  have en : parseQdescrs o1 = d.names := by
    unfold listOpt at r1
    by_cases hn : d.names = []
    · rw [if_pos hn] at r1
      cases o1 with
      | none => rw [hn]; rfl
      | some v => exact r1.elim
    · rw [if_neg hn] at r1
      cases o1 with
      | none => exact r1.elim
      | some v => exact parseQdescrs_eq r1 (ndv v (by simp))
  rw [en, (Rel_oids r4).1, (Rel_oids r6).1, (Rel_oids r7).1, parseAttrs_eq lower types _ (Rel_oids r6).2, parseAttrs_eq lower types _ (Rel_oids r7).2]
  have e3 : (o3.map (fun x => decide (x ≠ []))).getD false = d.obsolete := by
    rw [T_flag_ne t3, ← r3]
    cases o3 <;> rfl
  simp only [bind, Except.bind, saysOC, Option.getD_some]
  rw [← e3]

theorem shapeAT {x : Rfc4512.Lex} {d : Rfc4512.AttributeType} {s : Str} (h : Rfc4512.attributeType x d s) : ∃ m, s = '(' :: (m ++ [')']) := by
  simp only [Rfc4512.attributeType, cats, Abnf.cat] at h
  obtain ⟨p, _, rfl, hp, a, _, rfl, _, o, _, rfl, _, w1, _, rfl, _, w2, _, rfl, _, w3, _, rfl, _, w4, _, rfl, _, w5, _, rfl, _,
    w6, _, rfl, _, w7, _, rfl, _, w8, _, rfl, _, w9, _, rfl, _, w10, _, rfl, _, w11, _, rfl, _, w12, _, rfl, _, e, _, rfl, _, b, q, rfl, _, hq⟩ := h
  rw [show p = ['('] from hp, show q = [')'] from hq]
  exact ⟨a ++ (o ++ (w1 ++ (w2 ++ (w3 ++ (w4 ++ (w5 ++ (w6 ++ (w7 ++ (w8 ++ (w9 ++ (w10 ++ (w11 ++ (w12 ++ (e ++ b)))))))))))))), by simp⟩

theorem shapeOC {x : Rfc4512.Lex} {d : Rfc4512.ObjectClass} {s : Str} (h : Rfc4512.objectClass x d s) : ∃ m, s = '(' :: (m ++ [')']) := by
  simp only [Rfc4512.objectClass, cats, Abnf.cat] at h
  obtain ⟨p, _, rfl, hp, a, _, rfl, _, o, _, rfl, _, w1, _, rfl, _, w2, _, rfl, _, w3, _, rfl, _, w4, _, rfl, _, w5, _, rfl, _,
    w6, _, rfl, _, w7, _, rfl, _, e, _, rfl, _, b, q, rfl, _, hq⟩ := h
  rw [show p = ['('] from hp, show q = [')'] from hq]
  exact ⟨a ++ (o ++ (w1 ++ (w2 ++ (w3 ++ (w4 ++ (w5 ++ (w6 ++ (w7 ++ (e ++ b))))))))), by simp⟩

end Laurelin.SchemaSpec

namespace Laurelin.Props
open Laurelin Laurelin.SchemaSpec Spec

/-- C69: exactly when `AttributeType(spec)` succeeds, and with which properties: the text with its whitespace collapsed is a description with a name, and the
instance has what that description says. -/
theorem c69_attribute_type_iff (s : Str) (f : ATFields) :
    SchemaSpec.attributeType s = .ok f ↔ ∃ d, Rfc4512.attributeType codeLex d (collapse s) ∧ d.names ≠ [] ∧ f = saysAT d := by
  rw [at_all]
  constructor
  · intro h
    cases hm : (description atItems).matchAnchored (collapse s) with
    | none => rw [hm] at h; cases h
    | some m =>
      rw [hm] at h
      obtain ⟨o, os, rfl, hmt⟩ := (matchAnchored_some good_at (last_collapse s) m).1 hm
      obtain ⟨d, rfl, r, hd⟩ := at_sound hmt
      simp only [at_fields r hmt (nd_collapse s)] at h
      by_cases hn : d.names = []
      · rw [if_pos hn] at h; cases h
      · rw [if_neg hn] at h; cases h
        exact ⟨d, hd, hn, rfl⟩
  · rintro ⟨d, hd, hn, rfl⟩
    obtain ⟨os, r, hmt⟩ := at_complete hd (nd_collapse s)
    rw [(matchAnchored_some good_at (last_collapse s) _).2 ⟨d.oid, os, rfl, hmt⟩]
    simp only [at_fields r hmt (nd_collapse s), if_neg hn]

/-- C69: every description of RFC 4512, laid out with any whitespace, is read as what it says. -/
theorem c69_attribute_type_read (d : Rfc4512.AttributeType) (before s after : Str) (h : Rfc4512.attributeType rfcLex d s) (hn : d.names ≠ [])
    (h1 : ∀ c ∈ before, isWs c = true) (h2 : ∀ c ∈ after, isWs c = true) :
    SchemaSpec.attributeType (before ++ (s ++ after)) = .ok (saysAT d) := by
  obtain ⟨m, hs⟩ := shapeAT h
  rw [c69_attribute_type_iff, collapse_around before s after h1 h2 '(' ')' m hs (by decide) (by decide)]
  exact ⟨d, (Tn.attributeType d s false h).1, hn, rfl⟩

/-- C69: a specification that is refused is refused with `LDAPSchemaError`, and only because it is no description or has no name. -/
theorem c69_attribute_type_refused (s : Str) (e : Err) (h : SchemaSpec.attributeType s = .error e) :
    e = .ldapSchema ∧ ∀ d, Rfc4512.attributeType codeLex d (collapse s) → d.names = [] := by
  constructor
  · rw [at_all] at h
    cases hm : (description atItems).matchAnchored (collapse s) with
    | none => rw [hm] at h; cases h; rfl
    | some m =>
      rw [hm] at h
      obtain ⟨o, os, rfl, hmt⟩ := (matchAnchored_some good_at (last_collapse s) m).1 hm
      obtain ⟨d, rfl, r, hd⟩ := at_sound hmt
      simp only [at_fields r hmt (nd_collapse s)] at h
      by_cases hn : d.names = []
      · rw [if_pos hn] at h; cases h; rfl
      · rw [if_neg hn] at h; cases h
  · intro d hd
    apply Classical.byContradiction
    intro hn
    rw [(c69_attribute_type_iff s (saysAT d)).2 ⟨d, hd, hn, rfl⟩] at h
    cases h

/-- C69: no text says two things: two descriptions written by the same text give the same instance. -/
theorem c69_attribute_type_unambiguous (d d' : Rfc4512.AttributeType) (s : Str) (h : Rfc4512.attributeType rfcLex d s)
    (h' : Rfc4512.attributeType rfcLex d' s) (hn : d.names ≠ []) (hn' : d'.names ≠ []) : saysAT d = saysAT d' := by
  have e1 := c69_attribute_type_read d [] s [] h hn (by simp) (by simp)
  have e2 := c69_attribute_type_read d' [] s [] h' hn' (by simp) (by simp)
  rw [e1] at e2
  exact Except.ok.inj e2

/-- C69: exactly when `ObjectClass(spec)` succeeds, and with which properties. -/
theorem c69_object_class_iff {E : Type} (lower : Str → Str) (types : Schema.Reg E) (s : Str) (f : OCFields) :
    SchemaSpec.objectClass lower types s = .ok f ↔ ∃ d, Rfc4512.objectClass codeLex d (collapse s) ∧ f = saysOC types d := by
  unfold SchemaSpec.objectClass
  constructor
  · intro h
    cases hm : (description ocItems).matchAnchored (collapse s) with
    | none => rw [hm] at h; cases h
    | some m =>
      rw [hm] at h
      obtain ⟨o, os, rfl, hmt⟩ := (matchAnchored_some good_oc (last_collapse s) m).1 hm
      obtain ⟨d, rfl, r, hd⟩ := oc_sound hmt
      simp only [oc_fields lower types r hmt (nd_collapse s)] at h
      cases h
      exact ⟨d, hd, rfl⟩
  · rintro ⟨d, hd, rfl⟩
    obtain ⟨os, r, hmt⟩ := oc_complete hd (nd_collapse s)
    rw [(matchAnchored_some good_oc (last_collapse s) _).2 ⟨d.oid, os, rfl, hmt⟩]
    simp only [oc_fields lower types r hmt (nd_collapse s)]

/-- C69: every object class description of RFC 4512, laid out with any whitespace, is read as what it says. -/
theorem c69_object_class_read {E : Type} (lower : Str → Str) (types : Schema.Reg E) (d : Rfc4512.ObjectClass) (before s after : Str)
    (h : Rfc4512.objectClass rfcLex d s) (h1 : ∀ c ∈ before, isWs c = true) (h2 : ∀ c ∈ after, isWs c = true) :
    SchemaSpec.objectClass lower types (before ++ (s ++ after)) = .ok (saysOC types d) := by
  obtain ⟨m, hs⟩ := shapeOC h
  rw [c69_object_class_iff, collapse_around before s after h1 h2 '(' ')' m hs (by decide) (by decide)]
  exact ⟨d, (Tn.objectClass d s false h).1, rfl⟩

/-- C69: a refused object class specification raises `LDAPSchemaError` and is no description. -/
theorem c69_object_class_refused {E : Type} (lower : Str → Str) (types : Schema.Reg E) (s : Str) (e : Err)
    (h : SchemaSpec.objectClass lower types s = .error e) :
    e = .ldapSchema ∧ ∀ d, ¬ Rfc4512.objectClass codeLex d (collapse s) := by
  constructor
  · unfold SchemaSpec.objectClass at h
    cases hm : (description ocItems).matchAnchored (collapse s) with
    | none => rw [hm] at h; cases h; rfl
    | some m =>
      rw [hm] at h
      obtain ⟨o, os, rfl, hmt⟩ := (matchAnchored_some good_oc (last_collapse s) m).1 hm
      obtain ⟨d, rfl, r, hd⟩ := oc_sound hmt
      simp only [oc_fields lower types r hmt (nd_collapse s)] at h
      cases h
  · intro d hd
    rw [(c69_object_class_iff lower types s _).2 ⟨d, hd, rfl⟩] at h
    cases h

/-- C69 fails for descriptions with two extensions, and for keywords in lower case, both of which RFC 4512 allows. -/
theorem c69_not_several_extensions :
    SchemaSpec.attributeType (str "( 1.2 NAME 'a' X-A 'b' )") ≠ .error .ldapSchema ∧
    SchemaSpec.attributeType (str "( 1.2 NAME 'a' X-A 'b' X-C 'd' )") = .error .ldapSchema ∧
    SchemaSpec.attributeType (str "( 1.2 name 'a' )") = .error .ldapSchema := by
  refine ⟨?_, ?_, ?_⟩ <;> decide +kernel

-- a description over several lines, with a supertype and a length
example : SchemaSpec.attributeType (str "\n  ( 2.5.4.41\n    NAME ( 'n' 'nn' )\n    SUP top  SYNTAX 1.3.6{32}\tSINGLE-VALUE )  ") =
    .ok ⟨str "2.5.4.41", [str "n", str "nn"], some (str "top"), none, some (some (str "1.3.6")), some (some 32), none, some true, none, none, none⟩ := by
  decide +kernel

example : SchemaSpec.objectClass (E := Unit) id ⟨[(str "2.5.4.3", ⟨str "2.5.4.3", [str "cn", str "commonName"], ()⟩)], CIDict.empty⟩
    (str "( 2.5.6.6 NAME 'person' SUP top STRUCTURAL\n MUST ( sn $ 2.5.4.3 $ 9.9 ) MAY tel )") =
    .ok ⟨str "2.5.6.6", [str "person"], [str "top"], str "STRUCTURAL", false, [str "sn", str "cn", str "commonName"], [str "tel"]⟩ := by
  decide +kernel

-- such texts are descriptions in the sense of the RFC
example : Rfc4512.attributeType rfcLex ⟨str "1.2", [str "a"], false, false, none, none, none, none, none, true, false, false, none⟩
    (str "(\n1.2\tNAME 'a' SINGLE-VALUE)") := by
  have hd : ∀ c ∈ [' ', '\t', '\n'], isWs c = true := by decide
  have sp : ∀ c ∈ [' ', '\t', '\n'], Rfc4512.SP rfcLex [c] := fun c hc => ⟨[[c]], by simp, by simp, fun u hu => ⟨c, by simpa using hu, hd c hc⟩⟩
  have num : ∀ c, Rfc4512.isDigit c = true → Rfc4512.strictNumber [c] := fun c hc => Or.inl ⟨c, rfl, hc⟩
  refine ⟨['('], _, rfl, rfl, ['\n'], _, rfl, ⟨[['\n']], rfl, fun u hu => ⟨'\n', by simpa using hu, by decide⟩⟩, str "1.2", _, rfl,
    ⟨rfl, ['1'], ['.', '2'], rfl, num _ (by decide), [['.', '2']], by simp, rfl, fun u hu => ⟨['.'], ['2'], by simpa using hu, rfl, num _ (by decide)⟩⟩,
    str "\tNAME 'a'", _, rfl, ⟨['\t'], _, rfl, sp _ (by decide), str "NAME", _, rfl, rfl, [' '], str "'a'", rfl, sp _ (by decide),
      Or.inl ⟨rfl, ['\''], _, rfl, rfl, ['a'], ['\''], rfl, ⟨rfl, ['a'], [], rfl, ⟨'a', rfl, by decide⟩, [], rfl, by simp⟩, rfl⟩⟩,
    [], _, rfl, rfl, [], _, rfl, rfl, [], _, rfl, rfl, [], _, rfl, rfl, [], _, rfl, rfl, [], _, rfl, rfl, [], _, rfl, rfl,
    str " SINGLE-VALUE", _, rfl, ⟨[' '], _, rfl, sp _ (by decide), rfl⟩, [], _, rfl, rfl, [], _, rfl, rfl, [], _, rfl, rfl, [], _, rfl, Or.inl rfl,
    [], _, rfl, ⟨[], rfl, by simp⟩, rfl⟩

end Laurelin.Props
