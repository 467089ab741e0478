import Verif.Spec.NetgroupsObject
import Verif.Props.NetgroupsWire
/-!
C103: changing a netgroup through its object, down to the octets.
-/
namespace Laurelin.Props
open Laurelin Codec Asn1 Rfc4511 Spec
namespace NgO
open Netgroups WireP WireR OverWire OverWireP EntP ObjP NgP PatP
open Laurelin.Spec.OverWireS (Faithful Becomes withAdded without)
open Laurelin.Spec.DirectoryS (Directory Serves SearchFor Shown)
open Laurelin.Spec.EntriesS (Entries deleting replacing AttrsEffect)
open Laurelin.Spec.ObjectS (Tree Child Rdn Changed Mirrors)
open Laurelin.Spec.NgWire (changed)
open Laurelin.Spec.NgSearch (IsNetgroup)

variable {V R S D : Type} {dir : Directory D} {contents : S → D} {peer : Peer S} {lower norm : Str → Str} {mo : Str → Bytes → Bytes → Bool} {under : Str → Str → Prop} {system : Str → Prop}
  {at_ : D → Str → Option (Spec.Entry Bytes)} {typeOf : TypeOf AVal} {G : Str → AVal → Prop}

theorem any_seen (e : Spec.Entry Bytes) (a x : Str) (b : Bytes) (v : AVal) (hb : v.bytes = b) : (seen e x).any (fun y => onBytes mo a y v) = true ↔ ∃ y ∈ e x, mo a y b = true := by
  simp only [seen, List.any_map, List.any_eq_true, Function.comp, onBytes, hb, bytes_shown]

/-- a refresh leaves what the object already shows as its entry has it -/
theorem refresh_agrees (h : Setting dir contents peer lower norm mo under system at_ typeOf G) (env : Api.Env V R) (hlow : env.lower = lower) (strict : Bool) (l : Link Received.Decoded S) (hr : SessionP.Ready l.st)
    (o : Api.Obj) (dn : Str) (hdn : o.dn = some dn) (e : Spec.Entry Bytes) (he : at_ (contents l.peer) (norm dn) = some e) (hv : View lower G (⟨o.attrs, seen e⟩ : Props.Session AVal)) (attrs : List Str) (a : Str)
    (ha : Agrees lower (⟨o.attrs, seen e⟩ : Props.Session AVal) a) :
    Agrees lower (⟨(Api.act codec (fun d => d.1.1) peer env typeOf strict l o (.refresh attrs)).obj.attrs, seen e⟩ : Props.Session AVal) a := by
  subst hlow
  simp only [Api.act, hdn, Api.Turn.ofAfter, OverWire.refreshObj]
  have hentry : entryOf contents at_ (norm dn) l.peer = e := by
    simp only [entryOf, he, Option.getD_some]
  have hw : Good env.lower (entryOf contents at_ (norm dn)) G (⟨o.attrs, l⟩ : World S) := ⟨hr, by
    show View env.lower G ⟨o.attrs, seen (entryOf contents at_ (norm dn) l.peer)⟩
    rw [hentry]; exact hv⟩
  obtain ⟨_, _, h3⟩ := refresh_over (env.forObj strict dn) (conforms (lower := env.lower) (mo := mo) h.serves h.entries dn) ⟨o.attrs, l⟩ hw attrs
  revert h3
  rcases OverWire.refresh WireP.codec (fun d => d.1.1) peer (env.forObj strict dn) env.lower l o.attrs attrs with ⟨l', x | d'⟩
  · intro _
    exact ha
  · intro h3
    obtain ⟨got, hg, rfl⟩ := h3 d' rfl
    have hg' : FetchOf env.lower (seen e) attrs got := by
      rw [← hentry]; exact hg
    exact (c10_refresh_step env.lower ⟨o.attrs, seen e⟩ hv attrs got hg').2.1 a ha

/-- `has_object_class` of an object that shows its entry -/
theorem class_step (h : Setting dir contents peer lower norm mo under system at_ typeOf G) (env : Api.Env V R) (hlow : env.lower = lower) (strict : Bool) (l : Link Received.Decoded S) (hr : SessionP.Ready l.st)
    (o : Api.Obj) (ho : Alive lower norm at_ G (contents l.peer) o) (cls : Str) (hcls : G (str "objectClass") (.text cls)) :
    let t := Api.hasClass codec (fun d => d.1.1) peer env typeOf strict l o cls
    t.obj.dn = o.dn ∧ (∀ x, at_ (contents t.link.peer) x = at_ (contents l.peer) x) ∧ SessionP.Ready t.link.st ∧ Alive lower norm at_ G (contents t.link.peer) t.obj ∧
    (∀ dn e a, o.dn = some dn → at_ (contents l.peer) (norm dn) = some e → Agrees lower (⟨o.attrs, seen e⟩ : Props.Session AVal) a → Agrees lower (⟨t.obj.attrs, seen e⟩ : Props.Session AVal) a) ∧
    ∀ r, t.result = .ok r → (∃ b, r = .truth b) ∧ ∀ dn e, o.dn = some dn → at_ (contents l.peer) (norm dn) = some e →
      (r = .truth true ↔ ∃ x ∈ e (lower (str "objectClass")), mo (str "objectClass") x (utf8Enc cls) = true) := by
  subst hlow
  intro t
  have hfin : ∀ (u : Api.Turn Received.Decoded S), u.obj.dn = o.dn → (∀ x, at_ (contents u.link.peer) x = at_ (contents l.peer) x) → SessionP.Ready u.link.st → Alive env.lower norm at_ G (contents u.link.peer) u.obj →
      (∀ dn e a, o.dn = some dn → at_ (contents l.peer) (norm dn) = some e → Agrees env.lower (⟨o.attrs, seen e⟩ : Props.Session AVal) a → Agrees env.lower (⟨u.obj.attrs, seen e⟩ : Props.Session AVal) a) →
      (∀ r, u.result = .ok r → ∀ dn e, o.dn = some dn → at_ (contents l.peer) (norm dn) = some e → Agrees env.lower (⟨u.obj.attrs, seen e⟩ : Props.Session AVal) (str "objectClass")) →
      (∀ r, u.result = .ok r → ∃ dn e, o.dn = some dn ∧ at_ (contents l.peer) (norm dn) = some e) →
      t = (match u.result with
        | .error e => ⟨u.link, u.obj, .error e⟩
        | .ok _ => match CIDict.getItem env.lower u.obj.attrs (str "objectClass") with
          | .error e => ⟨u.link, u.obj, .error e⟩
          | .ok vs => ⟨u.link, u.obj, (AttrValueList.contains typeOf (str "objectClass") vs (.text cls)).map .truth⟩) →
      t.obj.dn = o.dn ∧ (∀ x, at_ (contents t.link.peer) x = at_ (contents l.peer) x) ∧ SessionP.Ready t.link.st ∧ Alive env.lower norm at_ G (contents t.link.peer) t.obj ∧
      (∀ dn e a, o.dn = some dn → at_ (contents l.peer) (norm dn) = some e → Agrees env.lower (⟨o.attrs, seen e⟩ : Props.Session AVal) a → Agrees env.lower (⟨t.obj.attrs, seen e⟩ : Props.Session AVal) a) ∧
      ∀ r, t.result = .ok r → (∃ b, r = .truth b) ∧ ∀ dn e, o.dn = some dn → at_ (contents l.peer) (norm dn) = some e →
        (r = .truth true ↔ ∃ x ∈ e (env.lower (str "objectClass")), mo (str "objectClass") x (utf8Enc cls) = true) := by
    intro u h1 h2 h3 h4 h5 h6 h7 ht
    rw [ht]
    clear ht t
    cases hres : u.result with
    | error x => exact ⟨h1, h2, h3, h4, h5, nofun⟩
    | ok r0 =>
      dsimp only
      cases hg : CIDict.getItem env.lower u.obj.attrs (str "objectClass") with
      | error x => exact ⟨h1, h2, h3, h4, h5, nofun⟩
      | ok vs =>
        dsimp only
        refine ⟨h1, h2, h3, h4, h5, fun r hr' => ?_⟩
        obtain ⟨dn, e, hdn, he⟩ := h7 _ hres
        have hag := h6 _ hres dn e hdn he
        have hvs : vs = seen e (env.lower (str "objectClass")) := by
          have : AttrsDict.getAttr env.lower u.obj.attrs (str "objectClass") = vs := by
            simp only [AttrsDict.getAttr, CIDict.get, hg]
          rw [← this]; exact hag
        have hgood : ∀ x ∈ vs, G (str "objectClass") x := by
          rw [hvs]
          exact h.good _ _ e he (str "objectClass")
        rw [(c04_value_list typeOf (onBytes mo) G h.decides _ _ _ hgood hcls).1] at hr'
        simp only [Except.map, Except.ok.injEq] at hr'
        subst hr'
        refine ⟨⟨_, rfl⟩, fun dn' e' hdn' he' => ?_⟩
        rw [hdn] at hdn'
        cases hdn'
        rw [he] at he'
        cases he'
        rw [Api.Returned.truth.injEq, hvs]
        exact any_seen e _ _ _ _ rfl
  by_cases hh : AttrsDict.has env.lower o.attrs (str "objectClass") = true
  · have hne := (AttrsDict.has_iff env.lower o.attrs (str "objectClass")).1 hh
    refine hfin ⟨l, o, .ok .done⟩ rfl (fun _ => rfl) hr ho (fun _ _ _ _ _ ha => ha) (fun _ _ dn e hdn he => ?_) (fun _ _ => ?_) ?_
    · unfold Alive at ho
      rw [hdn] at ho
      obtain ⟨e', he', hv⟩ := ho
      rw [he] at he'
      cases he'
      exact hv.view _ hne
    · unfold Alive at ho
      cases hdn : o.dn with
      | none => rw [hdn] at ho; exact absurd (ho _) hne
      | some dn => rw [hdn] at ho; obtain ⟨e, he, _⟩ := ho; exact ⟨dn, e, rfl, he⟩
    · simp only [t, Api.hasClass, if_pos hh]
      rfl
  · obtain ⟨k1, k2, k3, _⟩ := any_step h ⟨env, strict, .refresh [str "objectClass"], none⟩ rfl l hr o ho (fun _ _ _ _ => trivial)
    dsimp only at k1 k2 k3
    refine hfin (Api.act codec (fun d => d.1.1) peer env typeOf strict l o (.refresh [str "objectClass"])) ?_ ?_ k2 k3 (fun dn e a hdn he ha => ?_) (fun r hr' dn e hdn he => ?_) (fun r hr' => ?_) ?_
    · revert k1
      rcases (Api.act codec (fun d => d.1.1) peer env typeOf strict l o (.refresh [str "objectClass"])).result with x | r
      · exact fun k => k.2
      · rintro ⟨dn, _, k⟩; exact k.2.1
    · revert k1
      rcases (Api.act codec (fun d => d.1.1) peer env typeOf strict l o (.refresh [str "objectClass"])).result with x | r
      · exact fun k => k.1
      · rintro ⟨dn, _, k⟩; exact k.2.2.1
    · have ho' := ho
      unfold Alive at ho'
      rw [hdn] at ho'
      obtain ⟨e', he', hv⟩ := ho'
      rw [he] at he'
      cases he'
      exact refresh_agrees h env rfl strict l hr o dn hdn e he hv _ a ha
    · rw [hr'] at k1
      obtain ⟨dn', hdn', _, _, _, e', he', hs⟩ := k1
      rw [hdn] at hdn'
      cases hdn'
      rw [he] at he'
      cases he'
      exact agrees_of e _ _ (hs _ (by simp))
    · rw [hr'] at k1
      obtain ⟨dn', hdn', _, _, _, e', he', _⟩ := k1
      exact ⟨dn', e', hdn', he'⟩
    · simp only [t, Api.hasClass, if_neg hh]
      rfl

/-! ## The member list -/

theorem names_nodup {A : Type} (hne : lower tripleAttr ≠ lower memberAttr) (make : List Str → A) (attrs : PDict Str (List Str)) (h1 : ∀ kv ∈ attrs, kv.1 = tripleAttr ∨ kv.1 = memberAttr) (h2 : (attrs.map Prod.fst).Nodup) :
    ((attrs.map (fun kv => (kv.1, make kv.2))).map (fun kv => lower kv.1)).Nodup := by
  rw [List.map_map]
  induction attrs with
  | nil => simp
  | cons p l ih =>
    simp only [List.map_cons, List.nodup_cons, List.mem_map, Function.comp] at h2 ⊢
    refine ⟨?_, ih (fun kv hkv => h1 kv (by simp [hkv])) h2.2⟩
    rintro ⟨q, hq, heq⟩
    refine h2.1 ⟨q, hq, ?_⟩
    rcases h1 p (by simp) with hp | hp <;> rcases h1 q (by simp [hq]) with hq' | hq' <;> rw [hp, hq'] at heq ⊢
    · exact absurd heq.symm hne
    · exact absurd heq hne

theorem entries_all {fld : Field} {dom : Str} {ms : List Member} {l : List (Str × Str)} (hl : Ng.Entries fld dom ms l) : ∀ m ∈ ms, ∃ a v, Ng.Entry fld dom m a v := by
  induction hl with
  | nil => nofun
  | cons hh _ ih =>
    intro m hm
    rcases List.mem_cons.1 hm with rfl | hm
    · exact ⟨_, _, hh⟩
    · exact ih m hm

theorem not_bad {fld : Field} {dom : Str} {m : Member} {e : Err} {a v : Str} (hav : Ng.Entry fld dom m a v) (he : Ng.BadEntry fld m e) : False := by
  cases he
  all_goals cases hav
  all_goals first
    | contradiction
    | (rename_i hx
       rcases hx with ⟨hx, _⟩ | ⟨t, _, hx2⟩
       · exact absurd (congrArg List.length hx) (by simp only [List.length_append, List.length_cons, List.length_nil]; omega)
       · exact absurd (congrArg List.length hx2) (by simp))

/-- nothing is cleared -/
theorem clears (e : Spec.Entry AVal) (l : List (Mod AVal)) (hl : ∀ md ∈ l, valsList md.vals ≠ []) : ClearsPresent lower (onBytes mo) e (Props.meant l) := by
  induction l generalizing e with
  | nil => trivial
  | cons md l ih =>
    refine ⟨fun _ hv => absurd hv (hl md (by simp)), fun e' _ => ih e' (fun x hx => hl x (by simp [hx]))⟩

/-- what the entry becomes, from what is said of the attributes named -/
theorem becomes_of {A : Type} (hne : lower tripleAttr ≠ lower memberAttr) (how : Api.NgChange) (stands : List (Str × Str)) (attrs : PDict Str (List Str))
    (k2 : ∀ kv ∈ attrs, (kv.1 = tripleAttr ∨ kv.1 = memberAttr) ∧ kv.2 = Ng.valuesOf kv.1 stands ∧ kv.2 ≠ []) (k3 : ∀ a, Ng.valuesOf a stands ≠ [] → (a, Ng.valuesOf a stands) ∈ attrs) (make : List Str → A)
    (f : Str → A → List Bytes → List Bytes) (hf : ∀ a vs cur, vs ≠ [] → f a (make vs) cur = changed (mo a) cur (vs.map utf8Enc) how) (e e' : Spec.Entry Bytes)
    (h : Becomes lower e e' (attrs.map (fun kv => (kv.1, make kv.2))) f) :
    (∀ a ∈ [tripleAttr, memberAttr], e' (lower a) = changed (mo a) (e (lower a)) ((Ng.valuesOf a stands).map utf8Enc) how) ∧ ∀ x, x ≠ lower tripleAttr → x ≠ lower memberAttr → e' x = e x := by
  obtain ⟨h5, h6⟩ := h
  have inj : ∀ a ∈ [tripleAttr, memberAttr], ∀ b ∈ [tripleAttr, memberAttr], lower b = lower a → b = a := by
    intro a ha b hb hab
    simp only [List.mem_cons, List.not_mem_nil, or_false] at ha hb
    rcases ha with rfl | rfl <;> rcases hb with rfl | rfl
    · rfl
    · exact absurd hab.symm hne
    · exact absurd hab hne
    · rfl
  refine ⟨fun a ha => ?_, fun x hx1 hx2 => h6 x (fun kv hkv => ?_)⟩
  · by_cases hv : Ng.valuesOf a stands = []
    · rw [hv, h6 (lower a)]
      · cases how
        · simp [changed, withAdded]
        · simp [changed]
        · simp [changed, without]
      · intro kv hkv
        obtain ⟨p, hp, rfl⟩ := List.mem_map.1 hkv
        intro hl
        obtain ⟨q1, q2, q3⟩ := k2 p hp
        have := inj a ha p.1 (by rcases q1 with q1 | q1 <;> simp [q1]) hl
        rw [this] at q2
        exact q3 (q2.trans hv)
    · rw [h5 _ (List.mem_map.2 ⟨_, k3 a hv, rfl⟩)]
      exact hf a _ _ hv
  · obtain ⟨p, hp, rfl⟩ := List.mem_map.1 hkv
    rcases (k2 p hp).1 with q | q
    · rw [q]; exact fun h => hx1 h.symm
    · rw [q]; exact fun h => hx2 h.symm

end NgO

section
open Netgroups WireP WireR OverWire OverWireP EntP ObjP NgP PatP NgO
open Laurelin.Spec.OverWireS (Becomes withAdded without)
open Laurelin.Spec.DirectoryS (Directory Serves)
open Laurelin.Spec.EntriesS (deleting replacing)
open Laurelin.Spec.ObjectS (Changed Mirrors)
open Laurelin.Spec.NgWire (changed)
open Laurelin.Spec.NgSearch (IsNetgroup)
variable {V R S D : Type} {dir : Directory D} {contents : S → D} {peer : Peer S} {norm : Str → Str} {mo : Str → Bytes → Bytes → Bool} {under : Str → Str → Prop} {system : Str → Prop}
  {at_ : D → Str → Option (Spec.Entry Bytes)} {typeOf : TypeOf AVal} {G : Str → AVal → Prop}

/-- **C103.** Against any server that serves a directory: a change of a netgroup through its object changes that entry as the member list says, if the entry has the object class of netgroups, or it raises and no entry
has changed; a list with a member that stands for nothing is refused; the object shows its entry afterwards as it did before. With `strict_modify` the object has to show the triples and the member groups. -/
theorem c103_change_partial (env : Api.Env V R) (h : Setting dir contents peer env.lower norm mo under system at_ typeOf G) (l : Link Received.Decoded S) (hr : SessionP.Ready l.st) (o : Api.Obj)
    (ho : Alive env.lower norm at_ G (contents l.peer) o) (hne : env.lower tripleAttr ≠ env.lower memberAttr) (ht : ∀ a ∈ [tripleAttr, memberAttr], ∃ t, typeOf a = .ok t)
    (hcls : G (str "objectClass") (.text (str "nisNetgroup"))) (how : Api.NgChange) (fld : Field) (strict : Bool) (members : Members) (domain : Option Str)
    (hv : ∀ stands, Ng.Entries fld (Ng.orEmpty domain) members.toList stands → ∀ p ∈ stands, G p.1 (.text p.2))
    (hstrict : strict = true → ∀ dn e, o.dn = some dn → at_ (contents l.peer) (norm dn) = some e → ∀ a ∈ [tripleAttr, memberAttr], PatternsS.ShowsValues env.lower e o.attrs a) :
    let r := Api.ngObjChange codec (fun d => d.1.1) peer env typeOf how fld strict l o members domain
    NgObject.ChangeMeans env.lower norm mo at_ how fld members.toList (Ng.orEmpty domain) (contents l.peer) o r.result r.obj (contents r.link.peer) ∧
    Mirrors env.lower norm at_ (contents r.link.peer) r.obj ∧ Alive env.lower norm at_ G (contents r.link.peer) r.obj ∧ SessionP.Ready r.link.st ∧
    (∀ m ∈ members.toList, (∃ e, Ng.BadEntry fld m e) → ∃ e, r.result = .error e) := by
  intro r
  suffices hs : NgObject.ChangeMeans env.lower norm mo at_ how fld members.toList (Ng.orEmpty domain) (contents l.peer) o r.result r.obj (contents r.link.peer) ∧
      Alive env.lower norm at_ G (contents r.link.peer) r.obj ∧ SessionP.Ready r.link.st by
    refine ⟨hs.1, alive_mirrors hs.2.1, hs.2.1, hs.2.2, fun m hm hb => ?_⟩
    cases hres : r.result with
    | error x => exact ⟨x, rfl⟩
    | ok ret =>
      obtain ⟨_, h2⟩ := hs.1
      rw [hres] at h2
      obtain ⟨_, stands, _, h3, _⟩ := h2
      obtain ⟨a, v, hav⟩ := entries_all h3 m hm
      obtain ⟨e, he⟩ := hb
      exact (not_bad hav he).elim
  obtain ⟨c1, c2, c3, c4, c5, c6⟩ := class_step h env rfl strict l hr o ho _ hcls
  simp only [r, Api.ngObjChange, Api.ngRequire]
  revert c1 c2 c3 c4 c5 c6
  rcases Api.hasClass codec (fun d => d.1.1) peer env typeOf strict l o (str "nisNetgroup") with ⟨l1, o1, x | ret⟩
  · intro c1 c2 c3 c4 c5 c6
    exact ⟨⟨c1, c2⟩, c4, c3⟩
  · intro c1 c2 c3 c4 c5 c6
    obtain ⟨⟨b, rfl⟩, c7⟩ := c6 _ rfl
    cases b with
    | false => exact ⟨⟨c1, c2⟩, c4, c3⟩
    | true =>
      simp only [attrsFn_eq']
      cases hat : attrsFn fld members domain with
      | error x => exact ⟨⟨c1, c2⟩, c4, c3⟩
      | ok attrs =>
        dsimp only at c1 c2 c3 c4 c5 c7 ⊢
        obtain ⟨stands, k1, k2, k3, k4⟩ := attrs_spec fld members domain attrs hat
        have hnames : ∀ kv ∈ attrs, kv.1 = tripleAttr ∨ kv.1 = memberAttr := fun kv hkv => (k2 kv hkv).1
        have hG : ∀ kv ∈ attrs, ∀ v ∈ kv.2, G kv.1 (.text v) := by
          intro kv hkv v hvv
          rw [(k2 kv hkv).2.1] at hvv
          simp only [Ng.valuesOf, List.mem_map, List.mem_filter] at hvv
          obtain ⟨p, ⟨hp, hpk⟩, rfl⟩ := hvv
          have := hv stands k1 p hp
          rwa [show p.1 = kv.1 by simpa using hpk] at this
        have hT : ∀ kv ∈ attrs, ∃ t, typeOf kv.1 = .ok t := by
          intro kv hkv
          rcases hnames kv hkv with q | q <;> rw [q] <;> exact ht _ (by simp)
        have hfst : ∀ {A : Type} (make : List Str → A), ((attrs.map (fun kv => (kv.1, make kv.2))).map Prod.fst) = attrs.map Prod.fst := by
          intro A make
          rw [List.map_map]; rfl
        have hcareful : ∀ dn e, o1.dn = some dn → at_ (contents l1.peer) (norm dn) = some e → Careful env.lower norm typeOf mo G ⟨env, strict, Api.ngMethod attrs how, none⟩ o1 dn e := by
          intro dn e hdn he
          have hag : strict = true → ∀ a ∈ [tripleAttr, memberAttr], Agrees env.lower (⟨o1.attrs, seen e⟩ : Props.Session AVal) a := by
            intro hst a ha
            rw [c1] at hdn
            rw [c2] at he
            exact c5 dn e a hdn he (agrees_of e _ _ (hstrict hst dn e hdn he a ha))
          have hag' : strict = true → ∀ kv ∈ attrs, Agrees env.lower (⟨o1.attrs, seen e⟩ : Props.Session AVal) kv.1 := fun hst kv hkv => hag hst _ (by rcases hnames kv hkv with q | q <;> simp [q])
          cases how with
          | add =>
            refine ⟨names_nodup hne _ attrs hnames k4, ?_, ?_, ?_, ?_⟩
            · rw [hfst]; exact k4
            · rw [hfst]
              intro a ha
              obtain ⟨kv, hkv, rfl⟩ := List.mem_map.1 ha
              exact hT kv hkv
            · intro kv hkv v hvv
              obtain ⟨p, hp, rfl⟩ := List.mem_map.1 hkv
              obtain ⟨w, hw, rfl⟩ := List.mem_map.1 hvv
              exact hG p hp w hw
            · intro hst kv hkv
              obtain ⟨p, hp, rfl⟩ := List.mem_map.1 hkv
              exact hag' hst p hp
          | delete =>
            refine ⟨names_nodup hne (fun vs => Vals.list (vs.map AVal.text)) attrs hnames k4, ?_, ?_, ?_, ?_, ?_⟩
            · rw [hfst (fun vs => Vals.list (vs.map AVal.text))]; exact k4
            · rw [hfst (fun vs => Vals.list (vs.map AVal.text))]
              intro a ha
              obtain ⟨kv, hkv, rfl⟩ := List.mem_map.1 ha
              exact hT kv hkv
            · intro kv hkv v hvv
              obtain ⟨p, hp, rfl⟩ := List.mem_map.1 hkv
              obtain ⟨w, hw, rfl⟩ := List.mem_map.1 hvv
              exact hG p hp w hw
            · intro hst kv hkv
              obtain ⟨p, hp, rfl⟩ := List.mem_map.1 hkv
              exact hag' hst p hp
            · intro _ kv hkv
              obtain ⟨p, hp, rfl⟩ := List.mem_map.1 hkv
              intro hx
              simp only [Vals.list.injEq, List.map_eq_nil_iff] at hx
              exact (k2 p hp).2.2 hx
          | replace =>
            have hmods : ∀ md ∈ (attrs.map (fun kv => (kv.1, Vals.list (kv.2.map AVal.text)))).map (fun kv => (⟨.replace, kv.1, kv.2⟩ : Mod AVal)),
                md.op = .replace ∧ valsList md.vals ≠ [] ∧ ∀ v ∈ valsList md.vals, G md.attr v := by
              intro md hmd
              obtain ⟨kv, hkv, rfl⟩ := List.mem_map.1 hmd
              obtain ⟨p, hp, rfl⟩ := List.mem_map.1 hkv
              refine ⟨rfl, ?_, fun v hvv => ?_⟩
              · intro hx
                exact (k2 p hp).2.2 (List.map_eq_nil_iff.1 hx)
              · obtain ⟨w, hw, rfl⟩ := List.mem_map.1 hvv
                exact hG p hp w hw
            refine ⟨names_nodup hne (fun vs => Vals.list (vs.map AVal.text)) attrs hnames k4, ?_⟩
            constructor
            · intro md hmd ha
              rw [(hmods md hmd).1] at ha
              cases ha
            · exact fun md hmd => (hmods md hmd).2.2
            · intro _ md hmd hx
              exact (hmods md hmd).2.1 (by rw [hx]; rfl)
            · exact clears _ _ (fun md hmd => (hmods md hmd).2.1)
            · exact fun md hmd => Or.inr ⟨(hmods md hmd).1, (hmods md hmd).2.1⟩
        obtain ⟨m1, m2, m3, _⟩ := any_step h ⟨env, strict, Api.ngMethod attrs how, none⟩ rfl l1 c3 o1 c4 hcareful
        dsimp only at m1 m2 m3
        refine ⟨?_, m3, m2⟩
        revert m1
        generalize (Api.act codec (fun d => d.1.1) peer env typeOf strict l1 o1 (Api.ngMethod attrs how)) = t
        rcases t with ⟨l2, o2, x | ret⟩
        · rintro ⟨m4, m5⟩
          exact ⟨m5.trans c1, fun x => (m4 x).trans (c2 x)⟩
        · rintro ⟨dn, m4, m5⟩
          have hdn : o.dn = some dn := by rw [← c1]; exact m4
          have hgroup : ∀ e, at_ (contents l.peer) (norm dn) = some e → IsNetgroup env.lower mo e := fun e he => (c7 dn e hdn he).1 rfl
          have fin : ∀ {A : Type} (make : List Str → A) (f : Str → A → List Bytes → List Bytes), (∀ a vs cur, vs ≠ [] → f a (make vs) cur = changed (mo a) cur (vs.map utf8Enc) how) →
              Changed at_ (contents l1.peer) (contents l2.peer) (norm dn) (fun e e' => Becomes env.lower e e' (attrs.map (fun kv => (kv.1, make kv.2))) f) → o2.dn = o1.dn →
              NgObject.ChangeMeans env.lower norm mo at_ how fld members.toList (Ng.orEmpty domain) (contents l.peer) o (.ok ret) o2 (contents l2.peer) := by
            intro A make f hf hc ho2
            obtain ⟨⟨e, e', he, he', hb⟩, hother⟩ := hc
            rw [c2] at he
            obtain ⟨b1, b2⟩ := becomes_of hne how stands attrs k2 k3 make f hf e e' hb
            exact ⟨ho2.trans c1, dn, stands, hdn, k1, ⟨e, e', he, he', hgroup e he, b1, b2⟩, fun y hy => (hother y hy).trans (c2 y)⟩
          cases how with
          | add => exact fin (fun vs => vs.map AVal.text) _ (fun a vs cur _ => by simp only [changed, bytes_text]) m5.2.2 m5.2.1
          | replace =>
            refine fin (fun vs => Vals.list (vs.map AVal.text)) _ (fun a vs cur hvs => ?_) m5.2.2 m5.2.1
            simp only [changed, replacing, bytes_text]
            rw [if_neg (by rw [List.map_eq_nil_iff]; exact hvs)]
          | delete =>
            refine fin (fun vs => Vals.list (vs.map AVal.text)) _ (fun a vs cur hvs => ?_) m5.2.2 m5.2.1
            cases vs with
            | nil => exact absurd rfl hvs
            | cons v vs =>
              simp only [changed, deleting, List.map_cons]
              congr 1
              simp only [List.cons.injEq]
              exact ⟨rfl, bytes_text vs⟩

/-- **C103 (has_object_class).** Of an object that shows its entry: the call changes no entry and not what the object is of, and if it returns, the answer is whether the entry has a value of `objectClass` that matches. -/
theorem c103_object_class (env : Api.Env V R) (h : Setting dir contents peer env.lower norm mo under system at_ typeOf G) (l : Link Received.Decoded S) (hr : SessionP.Ready l.st) (o : Api.Obj) (dn : Str) (hdn : o.dn = some dn)
    (ho : Alive env.lower norm at_ G (contents l.peer) o) (strict : Bool) (cls : Str) (hcls : G (str "objectClass") (.text cls)) :
    let t := Api.hasClass codec (fun d => d.1.1) peer env typeOf strict l o cls
    t.obj.dn = o.dn ∧ (∀ x, at_ (contents t.link.peer) x = at_ (contents l.peer) x) ∧ SessionP.Ready t.link.st ∧ Mirrors env.lower norm at_ (contents t.link.peer) t.obj ∧
    ∀ ret, t.result = .ok ret → ∃ b e, ret = .truth b ∧ at_ (contents l.peer) (norm dn) = some e ∧ (b = true ↔ ∃ x ∈ e (env.lower (str "objectClass")), mo (str "objectClass") x (utf8Enc cls) = true) := by
  intro t
  obtain ⟨c1, c2, c3, c4, _, c6⟩ := class_step h env rfl strict l hr o ho cls hcls
  refine ⟨c1, c2, c3, alive_mirrors c4, fun ret hret => ?_⟩
  obtain ⟨⟨b, rfl⟩, c7⟩ := c6 _ hret
  unfold Alive at ho
  rw [hdn] at ho
  obtain ⟨e, he, _⟩ := ho
  have := c7 dn e hdn he
  rw [Api.Returned.truth.injEq] at this
  exact ⟨b, e, rfl, he, this⟩

/-- **C103 (no netgroup).** An object that shows object classes, none of which is that of netgroups, is refused, and nothing is sent. -/
theorem c103_refused (peer : Peer S) (env : Api.Env V R) (hD : Decides typeOf (onBytes mo) G) (l : Link Received.Decoded S) (o : Api.Obj) (how : Api.NgChange) (fld : Field) (strict : Bool) (members : Members)
    (domain : Option Str) (hcls : G (str "objectClass") (.text (str "nisNetgroup"))) (hs : AttrsDict.getAttr env.lower o.attrs (str "objectClass") ≠ [])
    (hn : ∀ x ∈ AttrsDict.getAttr env.lower o.attrs (str "objectClass"), G (str "objectClass") x ∧ mo (str "objectClass") x.bytes (utf8Enc (str "nisNetgroup")) = false) :
    Api.ngObjChange codec (fun d => d.1.1) peer env typeOf how fld strict l o members domain = ⟨l, o, .error .runtimeError⟩ := by
  have hh := (AttrsDict.has_iff env.lower o.attrs (str "objectClass")).2 hs
  have hg : ∃ vs, CIDict.getItem env.lower o.attrs (str "objectClass") = .ok vs ∧ AttrsDict.getAttr env.lower o.attrs (str "objectClass") = vs := by
    cases hg : CIDict.getItem env.lower o.attrs (str "objectClass") with
    | ok vs => exact ⟨vs, rfl, by simp only [AttrsDict.getAttr, CIDict.get, hg]⟩
    | error e => simp [AttrsDict.has, hg] at hh
  obtain ⟨vs, hg, hvs⟩ := hg
  rw [hvs] at hn
  have hc : AttrValueList.contains typeOf (str "objectClass") vs (.text (str "nisNetgroup")) = .ok false := by
    rw [(c04_value_list typeOf (onBytes mo) G hD _ _ _ (fun x hx => (hn x hx).1) hcls).1]
    congr 1
    rw [List.any_eq_false]
    intro x hx
    have := (hn x hx).2
    simp only [onBytes, AVal.bytes] at this ⊢
    rw [this]; simp
  simp only [Api.ngObjChange, Api.ngRequire, Api.hasClass, if_pos hh, hg, hc, Except.map]

/-- **C103, finding.** `get_users` and `get_hosts` of an object never return. -/
theorem c103_names_raise (peer : Peer S) (env : Api.Env V R) (typeOf : TypeOf AVal) (l : Link Received.Decoded S) (o : Api.Obj) (strict : Bool) :
    ∃ x, (Api.ngObjNames codec (fun d => d.1.1) peer env typeOf strict l o).result = .error x := by
  simp only [Api.ngObjNames]
  split <;> exact ⟨_, rfl⟩

end

/-! ### Concrete case -/
namespace NgO
open Netgroups WireP OverWire OverWireP EntP ObjP NgP
open Laurelin.Spec.DirectoryS (Directory Serves)
open Laurelin.Spec.EntriesS (Entries)
open Laurelin.Spec.ObjectS (Tree)

/-- an entry of the class of netgroups with these triples -/
def grpEnt (ts : List Bytes) : Spec.Entry Bytes := fun x => if x = lc (str "objectClass") then [utf8Enc (str "nisNetgroup")] else ngEnt ts [] x
def grpAt : List Bytes → Str → Option (Spec.Entry Bytes) := fun d x => if x = str "o" then some (grpEnt d) else none

def grpDir : Directory (List Bytes) where
  updated d op d' := ∃ cs, op = Spec.OverWireS.modifyOp (str "o") cs ∧ srvModify lc eqb (grpEnt d) cs = .ok (grpEnt d')
  holds _ _ _ _ := False
  finds _ _ _ := False

theorem grp_entries : Entries lc eqb (fun x => x) grpDir grpAt := by
  refine ⟨?_, fun _ _ _ _ _ _ _ _ h => h.elim⟩
  rintro d dn cs d' ⟨cs', h1, h3⟩
  have hdn : dn = str "o" := by
    simp only [Spec.OverWireS.modifyOp, Spec.Wire.Op.modifyRequest.injEq] at h1
    exact utf8_injective _ _ h1.1
  subst hdn
  have := modifyOp_inj _ _ _ h1
  subst this
  exact ⟨grpEnt d, grpEnt d', if_pos rfl, h3, if_pos rfl, fun x hx => by simp only [grpAt, if_neg hx]⟩

noncomputable def grpPeer : Peer (List Bytes) := fun s bs => if bs = upBytes then upOut s else Classical.choose (c90_server_exists grpDir) s bs

theorem grp_serves : Serves grpDir (fun d => d) grpPeer := by
  have h0 := (Classical.choose_spec (c90_server_exists grpDir)).1
  have ha := WireR.has_enc upMsg upBytes (by decide +kernel)
  refine DirP.override h0 upMsg upBytes ha.1 ha.2 upOut ?_ nofun (fun _ h => h.elim)
  intro s resp hresp
  cases hresp
  by_cases hs : s = [utf8Enc (str "(,u,)")]
  · subst hs
    have hr := WireR.has_enc ⟨1, .modifyResponse (said 0), none⟩ [48, 12, 2, 1, 1, 103, 7, 10, 1, 0, 4, 0, 4, 0] (by decide +kernel)
    refine ⟨said 0, ⟨_, .cons hr .nil, by decide, by decide⟩, .inl ⟨rfl, [⟨.add, tripleAttr, [utf8Enc (str "(,v,)")]⟩], rfl, ?_⟩⟩
    simp only [srvModify, srvChange]
    rw [show grpEnt [utf8Enc (str "(,u,)")] (lc tripleAttr) = [utf8Enc (str "(,u,)")] by decide +kernel,
      show srvAdd (eqb tripleAttr) [utf8Enc (str "(,u,)")] [utf8Enc (str "(,v,)")] = .ok [utf8Enc (str "(,u,)"), utf8Enc (str "(,v,)")] by decide]
    simp only [Except.ok.injEq]
    funext x
    simp only [Entry.put, grpEnt, ngEnt, upOut, if_true]
    by_cases hx : x = lc tripleAttr
    · rw [if_pos hx, if_neg (by rw [hx]; decide), if_pos hx]
    · rw [if_neg hx, if_neg hx, if_neg hx]
  · simp only [upOut, if_neg hs]
    have hr := WireR.has_enc ⟨1, .modifyResponse (said 53), none⟩ [48, 12, 2, 1, 1, 103, 7, 10, 1, 53, 4, 0, 4, 0] (by decide +kernel)
    exact ⟨said 53, ⟨_, .cons hr .nil, by decide, by decide⟩, .inr ⟨by decide, trivial⟩⟩

theorem grp_setting : Setting grpDir (fun d => d) grpPeer lc (fun x => x) eqb (fun _ _ => False) (fun _ => False) grpAt (fun _ => .ok (.default : AttrType AVal)) (fun _ v => Spec.Wire.Shows v.bytes v) :=
  ⟨grp_serves, grp_entries, ⟨fun _ _ _ _ _ h => (by obtain ⟨_, h, _⟩ := h; cases h), fun _ _ _ _ _ _ _ _ h => h.elim⟩,
    ⟨fun _ _ _ h => (by obtain ⟨_, h, _⟩ := h; cases h), fun _ _ _ _ _ _ _ _ _ _ _ h => (by obtain ⟨_, h, _⟩ := h; cases h), fun _ _ _ _ _ _ _ _ _ h => h.elim⟩,
    octets_decide, ⟨fun _ _ _ => rfl, fun _ _ _ _ h => h⟩, fun _ _ h => h, fun _ _ e _ => seen_good lc e⟩

/-- the object shows its object class and its triple -/
def grpObj : Api.Obj := ⟨some (str "o"), CIDict.update lc CIDict.empty [(str "objectClass", [.text (str "nisNetgroup")]), (tripleAttr, [.text (str "(,u,)")])], .sub, none⟩

noncomputable def grpRun :=
  Api.ngObjChange codec (fun d => d.1.1) grpPeer DirP.sampleEnv (fun _ => .ok (.default : AttrType AVal)) .add .user true ⟨Session.St.init, [utf8Enc (str "(,u,)")]⟩ grpObj (.one (.text (str "v"))) none

def returned : Except Err Api.Returned → Bool
  | .ok .done => true
  | _ => false

set_option maxRecDepth 100000 in
theorem grp_done : returned grpRun.result = true := by decide +kernel

theorem grp_alive : Alive lc (fun x => x) grpAt (fun _ v => Spec.Wire.Shows v.bytes v) [utf8Enc (str "(,u,)")] grpObj := by
  refine found_view (fun _ _ e _ => seen_good lc e) _ grpObj (str "o", [(str "objectClass", [utf8Enc (str "nisNetgroup")]), (tripleAttr, [utf8Enc (str "(,u,)")])]) [str "objectClass", tripleAttr] _ (if_pos rfl) ?_ _
    (.cons ⟨rfl, .cons rfl .nil⟩ (.cons ⟨rfl, .cons rfl .nil⟩ .nil))
  constructor
  · decide +kernel
  · decide +kernel
  · decide +kernel

/-- the hypotheses are met and the call returns -/
example : returned grpRun.result = true ∧ NgObject.ChangeMeans lc (fun x => x) eqb grpAt .add .user [.text (str "v")] [] [utf8Enc (str "(,u,)")] grpObj grpRun.result grpRun.obj grpRun.link.peer := by
  obtain ⟨h, _⟩ := c103_change_partial DirP.sampleEnv grp_setting ⟨Session.St.init, [utf8Enc (str "(,u,)")]⟩ SessionP.ready_init grpObj grp_alive lc_attrs (fun _ _ => ⟨_, rfl⟩) rfl .add .user true
    (.one (.text (str "v"))) none (fun _ _ p _ => rfl) (fun _ dn e hdn he a ha => by
      cases hdn
      have he' : some (grpEnt [utf8Enc (str "(,u,)")]) = some e := he
      cases he'
      simp only [List.mem_cons, List.not_mem_nil, or_false] at ha
      rcases ha with rfl | rfl
      · exact PatP.shows_agrees _ _ _ (by show _ = _; decide +kernel)
      · exact PatP.shows_agrees _ _ _ (by show _ = _; decide +kernel))
  exact ⟨grp_done, h⟩

/-- an object of another class -/
example (how : Api.NgChange) (l : Link Received.Decoded (List Bytes)) (members : Members) :
    Api.ngObjChange codec (fun d => d.1.1) grpPeer DirP.sampleEnv (fun _ => .ok (.default : AttrType AVal)) how .user false l ⟨some (str "o"), CIDict.update lc CIDict.empty [(str "objectClass", [.text (str "person")])], .sub, none⟩
      members none = ⟨l, ⟨some (str "o"), CIDict.update lc CIDict.empty [(str "objectClass", [.text (str "person")])], .sub, none⟩, .error .runtimeError⟩ :=
  c103_refused (mo := eqb) (G := fun _ v => Spec.Wire.Shows v.bytes v) grpPeer DirP.sampleEnv octets_decide l _ how .user false members none rfl (by decide +kernel) (fun x hx => by
    have hx' : x ∈ [AVal.text (str "person")] := hx
    simp only [List.mem_singleton] at hx'
    subst hx'
    exact ⟨rfl, by decide +kernel⟩)

end NgO
end Laurelin.Props
