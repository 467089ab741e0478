import Verif.Spec.NetgroupsWire
import Verif.Props.Netgroups
import Verif.Props.ObjectLife
/-!
# C101: netgroups down to the octets
-/
namespace Laurelin.Props
open Laurelin Codec Asn1 Rfc4511 Spec
namespace NgP
open Netgroups WireP WireR OverWire OverWireP EntP ObjP
open Laurelin.Spec.OverWireS (Faithful Becomes withAdded without)
open Laurelin.Spec.DirectoryS (Directory Serves SearchFor Shown)
open Laurelin.Spec.EntriesS (Entries deleting replacing AttrsEffect)
open Laurelin.Spec.ObjectS (Tree Child Rdn)
open Laurelin.Spec.NgWire
section
variable {V R S D : Type} {dir : Directory D} {contents : S → D} {peer : Peer S} {lower norm : Str → Str} {mo : Str → Bytes → Bytes → Bool} {at_ : D → Str → Option (Spec.Entry Bytes)} {G : Str → AVal → Prop}
  {under : Str → Str → Prop}

/-! ## Changes -/

theorem attrsFn_eq' (fld : Field) : Api.ngAttrs fld = attrsFn fld := by cases fld <;> rfl

theorem entry_attr {fld : Field} {dom : Str} {m : Member} {a v : Str} (h : Ng.Entry fld dom m a v) : a = tripleAttr ∨ a = memberAttr := by
  cases h <;> simp

theorem entries_attr {fld : Field} {dom : Str} {ms : List Member} {l : List (Str × Str)} (h : Ng.Entries fld dom ms l) : ∀ p ∈ l, p.1 = tripleAttr ∨ p.1 = memberAttr := by
  induction h with
  | nil => nofun
  | cons h _ ih =>
    intro p hp
    rcases List.mem_cons.1 hp with rfl | hp
    · exact entry_attr h
    · exact ih p hp

theorem loop_nodup (f : Member → Except Err (Str × Str)) : ∀ (ms : List Member) (d d' : PDict Str (List Str)), (d.map Prod.fst).Nodup → membersLoop f d ms = .ok d' → (d'.map Prod.fst).Nodup := by
  intro ms
  induction ms with
  | nil => intro d d' hd h; cases h; exact hd
  | cons m ms ih =>
    intro d d' hd h
    simp only [membersLoop] at h
    cases hf : f m with
    | error e => rw [hf] at h; cases h
    | ok p =>
      rw [hf] at h
      refine ih _ d' ?_ h
      simp only [addValue]
      split <;> exact PDict.nodup_set _ _ _ hd

/-- what a member list is made into -/
theorem attrs_spec (fld : Field) (ms : Members) (dom : Option Str) (attrs : PDict Str (List Str)) (h : attrsFn fld ms dom = .ok attrs) :
    ∃ stands, Ng.Entries fld (Ng.orEmpty dom) ms.toList stands ∧ (∀ kv ∈ attrs, (kv.1 = tripleAttr ∨ kv.1 = memberAttr) ∧ kv.2 = Ng.valuesOf kv.1 stands ∧ kv.2 ≠ []) ∧
      (∀ a, Ng.valuesOf a stands ≠ [] → (a, Ng.valuesOf a stands) ∈ attrs) ∧ (attrs.map Prod.fst).Nodup := by
  obtain ⟨stands, h1, h2⟩ := c50_members_only fld ms dom attrs h
  have hn : (attrs.map Prod.fst).Nodup := by
    rw [attrsFn_eq] at h
    exact loop_nodup _ _ _ _ (by simp) h
  refine ⟨stands, h1, fun kv hkv => ?_, fun a ha => ?_, hn⟩
  · have hg : attrs.get? kv.1 = some kv.2 := (PDict.mem_iff_get? attrs hn kv.1 kv.2).1 hkv
    rw [h2] at hg
    split at hg
    · cases hg
    · rename_i hne
      simp only [Option.some.injEq] at hg
      refine ⟨?_, hg.symm, by rw [← hg]; exact hne⟩
      have : ∃ p ∈ stands, p.1 = kv.1 := by
        by_cases hex : ∃ p ∈ stands, p.1 = kv.1
        · exact hex
        · refine absurd ?_ hne
          simp only [Ng.valuesOf, List.map_eq_nil_iff, List.filter_eq_nil_iff]
          intro p hp hq
          exact hex ⟨p, hp, by simpa using hq⟩
      obtain ⟨p, hp, hk⟩ := this
      rw [← hk]
      exact entries_attr h1 p hp
  · have hg := h2 a
    rw [if_neg ha] at hg
    exact (PDict.mem_iff_get? attrs hn _ _).2 hg

/-- the effect of a call on the attributes of a member list, in terms of what its members stand for -/
theorem change_of {A : Type} (hne : lower tripleAttr ≠ lower memberAttr) (how : Api.NgChange) (fld : Field) (dn : Str) (ms : Members) (dom : Option Str) (d : D) (res : Except Err (Api.Ret R)) (d' : D)
    (attrs : PDict Str (List Str)) (h : attrsFn fld ms dom = .ok attrs) (make : List Str → A) (f : Str → A → List Bytes → List Bytes)
    (hf : ∀ a vs cur, vs ≠ [] → f a (make vs) cur = changed (mo a) cur (vs.map utf8Enc) how) (he : AttrsEffect lower norm at_ d dn (attrs.map (fun kv => (kv.1, make kv.2))) f res d') :
    ChangeMeans lower norm mo at_ how fld dn ms.toList (Ng.orEmpty dom) d res d' := by
  cases res with
  | error e => exact he
  | ok ret =>
    obtain ⟨h1, h2, h3⟩ := he
    obtain ⟨stands, k1, k2, k3, k4⟩ := attrs_spec fld ms dom attrs h
    refine ⟨h1, stands, k1, h2, ?_⟩
    cases hd : at_ d (norm dn) with
    | none => rw [hd] at h3; exact h3
    | some e =>
      rw [hd] at h3
      obtain ⟨e', h4, h5, h6⟩ := h3
      have inj : ∀ a ∈ [tripleAttr, memberAttr], ∀ b ∈ [tripleAttr, memberAttr], lower b = lower a → b = a := by
        intro a ha b hb hab
        simp only [List.mem_cons, List.not_mem_nil, or_false] at ha hb
        rcases ha with rfl | rfl <;> rcases hb with rfl | rfl
        · rfl
        · exact absurd hab.symm hne
        · exact absurd hab hne
        · rfl
      refine ⟨e', h4, fun a ha => ?_, fun x hx1 hx2 => h6 x (fun kv hkv => ?_)⟩
      · by_cases hv : Ng.valuesOf a stands = []
        · rw [hv, h6 (lower a)]
          · cases how
            · simp [changed, withAdded]
            · simp [changed]
            · simp [changed, without]
          · intro kv hkv
            obtain ⟨p, hp, rfl⟩ := List.mem_map.1 hkv
            intro hl
            obtain ⟨q1, q2, q3⟩ := k2 p hp
            have := inj a ha p.1 (by rcases q1 with q1 | q1 <;> simp [q1]) hl
            rw [this] at q2
            exact q3 (q2.trans hv)
        · rw [h5 _ (List.mem_map.2 ⟨_, k3 a hv, rfl⟩)]
          exact hf a _ _ hv
      · obtain ⟨p, hp, rfl⟩ := List.mem_map.1 hkv
        rcases (k2 p hp).1 with q | q
        · rw [q]; exact fun h => hx1 h.symm
        · rw [q]; exact fun h => hx2 h.symm

theorem bytes_text (vs : List Str) : (vs.map AVal.text).map AVal.bytes = vs.map utf8Enc := by
  rw [List.map_map]
  rfl

/-! ## Members -/

theorem get_step (hs : Serves dir contents peer) (env : Api.Env V R) (hT : Tree env.lower mo norm under dir at_) (typeOf : TypeOf AVal) (l : Link Received.Decoded S) (hr : SessionP.Ready l.st) (base : Except Err Api.Obj)
    (attrs : List Str) (cn : Str) (l' : Link Received.Decoded S) (res : Except Err Api.Obj) (hx : Api.ngGet codec (fun d => d.1.1) peer env typeOf base attrs l cn = (l', res)) :
    contents l'.peer = contents l.peer ∧ SessionP.Ready l'.st ∧
    ∀ n, res = .ok n → ∃ o e, base = .ok o ∧ Group norm dir at_ env.conn (contents l.peer) o attrs cn e ∧ ∀ a ∈ attrs, AttrsDict.getAttr env.lower n.attrs a = seen e (env.lower a) := by
  simp only [Api.ngGet] at hx
  cases base with
  | error e => cases hx; exact ⟨rfl, hr, nofun⟩
  | ok o =>
    dsimp only at hx
    cases hdn : o.dn with
    | none =>
      simp only [Api.act, hdn] at hx
      cases hx
      exact ⟨rfl, hr, nofun⟩
    | some dn =>
      simp only [Api.act, hdn] at hx
      have hnames : o.names.dn = some dn := hdn
      have hconn : o.names.conn = true := by
        simp only [Api.Obj.names, hdn]
        rfl
      have key : (∃ x, o.names.findArgs (V := V) cn (some attrs) [] = .error x) ∨ ∃ a : SearchArgs V, o.names.findArgs cn (some attrs) [] = .ok a ∧ a.attrsOnly = false ∧ a.kwds = [] ∧ a.attrs = some attrs ∧
          LookedUp o dn cn attrs a := by
        simp only [LObj.findArgs, hconn, Bool.true_eq_false, if_false]
        have hsc : o.names.scope = o.scope := rfl
        rw [hsc]
        cases hsco : o.scope with
        | base => exact .inl ⟨_, rfl⟩
        | other => exact .inl ⟨_, rfl⟩
        | one =>
          rcases child_name o dn hdn cn with ⟨x, hx⟩ | ⟨child, hx, hch⟩
          · simp only [hx]; exact .inl ⟨_, rfl⟩
          · simp only [hx]; exact .inr ⟨_, rfl, rfl, rfl, rfl, .one child hsco hch⟩
        | sub =>
          rcases rdn_name o cn with ⟨x, hx⟩ | ⟨full, hx, hch⟩
          · simp only [hx]; exact .inl ⟨_, rfl⟩
          · simp only [hx, hnames]; exact .inr ⟨_, rfl, rfl, rfl, rfl, .sub full hsco hch⟩
      rcases key with ⟨x, hk⟩ | ⟨a, hk, ha1, ha2, ha3, ha4⟩
      · rw [hk] at hx
        cases hx
        exact ⟨rfl, hr, nofun⟩
      · rw [hk] at hx
        dsimp only at hx
        have g := DirP.searchAll_step env hs l hr a
        have g4 := DirP.searchAll_plain env hs l hr a ha2
        revert g g4 hx
        rcases Api.searchAll codec (fun d => d.1.1) peer env l a with ⟨l1, x | items⟩
        · rintro hx ⟨g1, _, g3, _⟩ g4
          cases hx
          exact ⟨g1, g3 g4.1 g4.2, nofun⟩
        · rintro hx ⟨g1, g2, g3, _⟩ g4
          dsimp only at g1
          have hrd := g3 nofun nofun
          obtain ⟨op, found, q1, q2, q3⟩ := g2 items rfl
          simp only [Api.oneObj] at hx
          unfold Shown at q3
          rcases items with _ | ⟨i, _ | ⟨i2, items⟩⟩
          · cases hx; exact ⟨g1, hrd, nofun⟩
          · cases q3 with
            | @cons p _ _ _ q3 q4 =>
              cases q4
              obtain ⟨got, rfl, hg⟩ := q3
              simp only [Search.getOneResult, Api.Obj.made] at hx
              cases hx
              refine ⟨g1, hrd, fun n hn => ?_⟩
              cases hn
              have hop := q1
              obtain ⟨n, f, _, _, rfl⟩ := hop
              rw [ha1] at q2
              obtain ⟨e, he, hfe⟩ := hT.found _ _ _ _ _ _ _ _ _ q2 p (by simp)
              refine ⟨o, e, rfl, ⟨dn, a, _, p, hdn, ha4, q1, by rw [ha1]; exact q2, he⟩, fun x hxa => ?_⟩
              have hat : x ∈ Spec.attrsOf a := by
                simp only [Spec.attrsOf, ha3]
                exact hxa
              obtain ⟨v0, v1⟩ := view_empty (lower := env.lower) (G := fun _ _ => True) (seen e) (fun _ _ _ => trivial)
              exact (c10_refresh_step env.lower ⟨CIDict.empty, seen e⟩ v0 _ got (fetched e _ p.2 got hfe hg)).2.2 x hat (v1 x)
          · simp only [Search.getOneResult] at hx
            cases hx; exact ⟨g1, hrd, nofun⟩

theorem fields_spec (fld : Field) : ∀ (bs : List Bytes) (names : List Str), Api.ngFields fld (bs.map shown) = .ok names → ∃ ts, bs = ts.map utf8Enc ∧ Ng.FieldsOf fld ts names
  | [], names, h => by cases h; exact ⟨[], rfl, .nil⟩
  | b :: bs, names, h => by
    have hb := bytes_shown b
    simp only [List.map_cons] at h
    cases hsh : shown b with
    | raw x => rw [hsh] at h; cases h
    | text t =>
      rw [hsh] at h hb
      simp only [Api.ngFields] at h
      cases hq : tripleFields t with
      | none => rw [hq] at h; cases h
      | some q =>
        rw [hq] at h
        dsimp only at h
        cases hf : Api.ngFields fld (bs.map shown) with
        | error e => rw [hf] at h; cases h
        | ok l =>
          rw [hf] at h
          cases h
          obtain ⟨ts, k1, k2⟩ := fields_spec fld bs l hf
          obtain ⟨a, u, d⟩ := q
          have hl := (c50_fields t a u d).1 hq
          refine ⟨t :: ts, by rw [List.map_cons, ← k1, ← hb]; rfl, ?_⟩
          have : fld.of (a, u, d) = Ng.fieldOf fld a u := by cases fld <;> rfl
          rw [this]
          exact .cons hl k2

section
variable {group : Str → Spec.Entry Bytes → Prop} {M : Type}

/-- the loop over the members, for any way to expand one -/
theorem all_spec (I : Link M S → Prop) (fld : Field) (expand : Link M S → Str → Link M S × Except Err (List Str))
    (hexp : ∀ l m, I l → I (expand l m).1 ∧ ∀ more, (expand l m).2 = .ok more → Expands lower group fld m more) :
    ∀ (bs : List Bytes) (l : Link M S) (names : List Str), I l →
      I (Api.ngAll expand l names (bs.map shown)).1 ∧
      ∀ out, (Api.ngAll expand l names (bs.map shown)).2 = .ok out → ∃ ms more, bs = ms.map utf8Enc ∧ ExpandsAll lower group fld ms more ∧ out = names ++ more
  | [], l, names, hl => ⟨hl, fun out h => by cases h; exact ⟨[], [], rfl, .nil, by simp⟩⟩
  | b :: bs, l, names, hl => by
    have hb := bytes_shown b
    simp only [List.map_cons]
    cases hsh : shown b with
    | raw x => exact ⟨hl, nofun⟩
    | text m =>
      rw [hsh] at hb
      simp only [Api.ngAll]
      obtain ⟨k1, k2⟩ := hexp l m hl
      revert k1 k2
      rcases expand l m with ⟨l', e | more⟩
      · intro k1 _
        exact ⟨k1, nofun⟩
      · intro k1 k2
        obtain ⟨i1, i2⟩ := all_spec I fld expand hexp bs l' (names ++ more) k1
        refine ⟨i1, fun out hout => ?_⟩
        obtain ⟨ms, rest, j1, j2, j3⟩ := i2 out hout
        exact ⟨m :: ms, more ++ rest, by rw [List.map_cons, ← j1, ← hb]; rfl, .cons m ms more rest (k2 more rfl) j2, by rw [j3]; simp⟩

theorem all_goal {P : List Str → Prop} (I : Link M S → Prop) (fld : Field) (expand : Link M S → Str → Link M S × Except Err (List Str))
    (hexp : ∀ l m, I l → I (expand l m).1 ∧ ∀ more, (expand l m).2 = .ok more → Expands lower group fld m more) (bs : List Bytes) (l : Link M S) (names : List Str) (hl : I l)
    (hP : ∀ ms more, bs = ms.map utf8Enc → ExpandsAll lower group fld ms more → P (names ++ more)) :
    I (Api.ngAll expand l names (bs.map shown)).1 ∧ ∀ out, (Api.ngAll expand l names (bs.map shown)).2 = .ok out → P out := by
  obtain ⟨h1, h2⟩ := all_spec I fld expand hexp bs l names hl
  refine ⟨h1, fun out hout => ?_⟩
  obtain ⟨ms, more, j1, j2, rfl⟩ := h2 out hout
  exact hP ms more j1 j2
end

theorem obj_step (hs : Serves dir contents peer) (env : Api.Env V R) (hT : Tree env.lower mo norm under dir at_) (typeOf : TypeOf AVal) (o : Api.Obj) (attrs : List Str) (ht : tripleAttr ∈ attrs) (hm : memberAttr ∈ attrs)
    (fld : Field) (d : D) : ∀ (depth : Nat) (l : Link Received.Decoded S) (n : Api.Obj) (cn : Str) (recursive : Bool) (e : Spec.Entry Bytes), SessionP.Ready l.st → contents l.peer = d →
      Group norm dir at_ env.conn d o attrs cn e → (∀ a ∈ attrs, AttrsDict.getAttr env.lower n.attrs a = seen e (env.lower a)) →
      let r := Api.ngObj codec (fun d => d.1.1) peer env typeOf (.ok o) attrs fld depth l n recursive
      (SessionP.Ready r.1.st ∧ contents r.1.peer = d) ∧
      ∀ names, r.2 = .ok names → if recursive then Expands env.lower (Group norm dir at_ env.conn d o attrs) fld cn names else Direct env.lower fld e names := by
  intro depth
  induction depth with
  | zero => intro l n cn recursive e hr hd _ _; exact ⟨⟨hr, hd⟩, nofun⟩
  | succ depth ih =>
    intro l n cn recursive e hr hd hgr hat
    simp only [Api.ngObj]
    rw [hat _ ht]
    cases hf : Api.ngFields fld (seen e (env.lower tripleAttr)) with
    | error x => exact ⟨⟨hr, hd⟩, nofun⟩
    | ok names =>
      have hdir : Direct env.lower fld e names := fields_spec fld _ _ hf
      dsimp only
      cases recursive with
      | false => exact ⟨⟨hr, hd⟩, fun out h => by cases h; simpa using hdir⟩
      | true =>
        cases hh : AttrsDict.has env.lower n.attrs memberAttr with
        | false =>
          refine ⟨⟨hr, hd⟩, fun out h => ?_⟩
          cases h
          have h0 := (AttrsDict.has_false_iff env.lower n.attrs memberAttr).1 hh
          rw [hat _ hm] at h0
          have h1 : e (env.lower memberAttr) = [] := by simpa [seen] using h0
          have := Expands.mk (lower := env.lower) (fld := fld) cn e names [] [] hgr hdir (by simpa using h1) .nil
          simpa using this
        | true =>
          simp only [Bool.and_self, if_true]
          rw [hat _ hm, show seen e (env.lower memberAttr) = (e (env.lower memberAttr)).map shown from rfl]
          refine all_goal (lower := env.lower) (group := Group norm dir at_ env.conn d o attrs) (P := fun out => Expands env.lower (Group norm dir at_ env.conn d o attrs) fld cn out)
            (fun l => SessionP.Ready l.st ∧ contents l.peer = d) fld _ ?_ _ l names ⟨hr, hd⟩ (fun ms more j1 j2 => Expands.mk cn e names more ms hgr hdir j1 j2)
          rintro l m ⟨hr, hd⟩
          rcases hg : Api.ngGet codec (fun d => d.1.1) peer env typeOf (.ok o) attrs l m with ⟨l', x | n'⟩
          · obtain ⟨g1, g2, _⟩ := get_step hs env hT typeOf l hr _ attrs m _ _ hg
            dsimp only
            exact ⟨⟨g2, by rw [g1]; exact hd⟩, nofun⟩
          · obtain ⟨g1, g2, g3⟩ := get_step hs env hT typeOf l hr _ attrs m _ _ hg
            obtain ⟨o', e', ho, g4, g5⟩ := g3 n' rfl
            cases ho
            rw [hd] at g4
            have := ih l' n' m true e' g2 (by rw [g1]; exact hd) g4 g5
            dsimp only
            exact ⟨this.1, fun more hmore => by simpa using this.2 more hmore⟩

section
variable {group : Str → Spec.Entry Bytes → Prop}

theorem direct_named {fld : Field} {ts names : List Str} (h : Ng.FieldsOf fld ts names) : ∀ x ∈ names, ∃ t ∈ ts, ∃ a u d, Ng.TripleLine t a u d ∧ Ng.fieldOf fld a u = x := by
  induction h with
  | nil => nofun
  | cons h _ ih =>
    intro x hx
    rcases List.mem_cons.1 hx with rfl | hx
    · exact ⟨_, by simp, _, _, _, h, rfl⟩
    · obtain ⟨t, ht, r⟩ := ih x hx
      exact ⟨t, by simp [ht], r⟩

theorem named_direct {fld : Field} {ts names : List Str} (h : Ng.FieldsOf fld ts names) : ∀ t ∈ ts, ∀ a u d, Ng.TripleLine t a u d → Ng.fieldOf fld a u ∈ names := by
  induction h with
  | nil => nofun
  | cons h _ ih =>
    intro t ht a u d hl
    rcases List.mem_cons.1 ht with rfl | ht
    · have e1 := (c50_fields _ _ _ _).2 h
      have e2 := (c50_fields _ _ _ _).2 hl
      rw [e1] at e2
      cases e2
      simp
    · exact List.mem_cons_of_mem _ (ih t ht a u d hl)

mutual
theorem expands_sound {fld : Field} {cn : Str} {names : List Str} : Expands lower group fld cn names → ∀ x ∈ names, ∃ g, Reach lower group cn g ∧ NamedBy lower group fld g x
  | .mk cn e names more ms hg ⟨ts, h1, h2⟩ hm hall => by
    intro x hx
    rcases List.mem_append.1 hx with hx | hx
    · obtain ⟨t, ht, a, u, d, k1, k2⟩ := direct_named h2 x hx
      exact ⟨cn, .refl cn, e, t, a, u, d, hg, by rw [h1]; exact List.mem_map.2 ⟨t, ht, rfl⟩, k1, k2⟩
    · obtain ⟨m, hmm, g, hr, hn⟩ := all_sound hall x hx
      exact ⟨g, .step cn m g ⟨e, hg, by rw [hm]; exact List.mem_map.2 ⟨m, hmm, rfl⟩⟩ hr, hn⟩
theorem all_sound {fld : Field} {ms : List Str} {names : List Str} : ExpandsAll lower group fld ms names → ∀ x ∈ names, ∃ m ∈ ms, ∃ g, Reach lower group m g ∧ NamedBy lower group fld g x
  | .nil => nofun
  | .cons m ms l l' h hall => by
    intro x hx
    rcases List.mem_append.1 hx with hx | hx
    · exact ⟨m, by simp, expands_sound h x hx⟩
    · obtain ⟨m', hm', r⟩ := all_sound hall x hx
      exact ⟨m', by simp [hm'], r⟩
end

mutual
theorem expands_complete (hfun : ∀ g e e', group g e → group g e' → e = e') {fld : Field} {cn : Str} {names : List Str} : Expands lower group fld cn names → ∀ g x, Reach lower group cn g → NamedBy lower group fld g x → x ∈ names
  | .mk cn e names more ms hg ⟨ts, h1, h2⟩ hm hall => by
    intro g x hr hn
    cases hr with
    | refl =>
      obtain ⟨e', t, a, u, d, k1, k2, k3, rfl⟩ := hn
      rw [← hfun _ _ _ hg k1, h1] at k2
      obtain ⟨t', ht, heq⟩ := List.mem_map.1 k2
      rw [utf8_injective _ _ heq] at ht
      exact List.mem_append_left _ (named_direct h2 t ht a u d k3)
    | step _ m _ hmem hr =>
      obtain ⟨e', k1, k2⟩ := hmem
      rw [← hfun _ _ _ hg k1, hm] at k2
      obtain ⟨m', hm', heq⟩ := List.mem_map.1 k2
      rw [utf8_injective _ _ heq] at hm'
      exact List.mem_append_right _ (all_complete hfun hall m hm' g x hr hn)
theorem all_complete (hfun : ∀ g e e', group g e → group g e' → e = e') {fld : Field} {ms : List Str} {names : List Str} : ExpandsAll lower group fld ms names → ∀ m ∈ ms, ∀ g x, Reach lower group m g → NamedBy lower group fld g x → x ∈ names
  | .nil => nofun
  | .cons m ms l l' h hall => by
    intro m' hm' g x hr hn
    rcases List.mem_cons.1 hm' with heq | hm'
    · rw [heq] at hr
      exact List.mem_append_left _ (expands_complete hfun h g x hr hn)
    · exact List.mem_append_right _ (all_complete hfun hall m' hm' g x hr hn)
end

mutual
theorem expands_acc (hfun : ∀ g e e', group g e → group g e' → e = e') {fld : Field} {cn : Str} {names : List Str} : Expands lower group fld cn names → Acc (MemberOf lower group) cn
  | .mk cn e names more ms hg _ hm hall => by
    refine ⟨_, fun m hmem => ?_⟩
    obtain ⟨e', k1, k2⟩ := hmem
    rw [← hfun _ _ _ hg k1, hm] at k2
    obtain ⟨m', hm', heq⟩ := List.mem_map.1 k2
    rw [utf8_injective _ _ heq] at hm'
    exact all_acc hfun hall m hm'
theorem all_acc (hfun : ∀ g e e', group g e → group g e' → e = e') {fld : Field} {ms : List Str} {names : List Str} : ExpandsAll lower group fld ms names → ∀ m ∈ ms, Acc (MemberOf lower group) m
  | .nil => nofun
  | .cons m ms l l' h hall => by
    intro m' hm'
    rcases List.mem_cons.1 hm' with heq | hm'
    · rw [heq]
      exact expands_acc hfun h
    · exact all_acc hfun hall m' hm'
end

theorem reach_acc {g k : Str} (h : Reach lower group g k) (ha : Acc (MemberOf lower group) g) : Acc (MemberOf lower group) k := by
  induction h with
  | refl => exact ha
  | step g m k hm _ ih => exact ih (ha.inv hm)

theorem acc_no_cycle {k : Str} (ha : Acc (MemberOf lower group) k) : ∀ m, MemberOf lower group m k → ¬ Reach lower group m k := by
  induction ha with
  | intro k hk ih =>
    intro m hm hr
    cases hr with
    | refl => exact ih _ hm _ hm (.refl _)
    | step _ m' _ hm' hr' =>
      -- the cycle, started one step later
      have snoc : ∀ {a b c : Str}, Reach lower group a b → MemberOf lower group c b → Reach lower group a c := by
        intro a b c hab hcb
        induction hab with
        | refl a => exact .step a c c hcb (.refl c)
        | step a x b hx _ ih => exact .step a x c hx (ih hcb)
      exact ih m hm m' hm' (snoc hr' hm)

end

end
end NgP

section
open Netgroups WireP OverWire OverWireP EntP NgP
open Laurelin.Spec.DirectoryS (Directory Serves)
open Laurelin.Spec.EntriesS (Entries)
open Laurelin.Spec.NgWire
variable {V R S D : Type} {dir : Directory D} {contents : S → D} {peer : Peer S} {norm : Str → Str} {mo : Str → Bytes → Bytes → Bool} {at_ : D → Str → Option (Spec.Entry Bytes)} {G : Str → AVal → Prop}

/-- **C101 (changes).** Against any server that serves a directory, with any connection that is between two requests: `add_users`, `add_hosts`, `delete_users`, `delete_hosts`, `replace_users`, `replace_hosts` raise
and have changed nothing, or have changed the entry as they say. A list one of whose members stands for nothing is refused and nothing is sent. `G`: the values conform to the schema. -/
theorem c101_change_partial (hs : Serves dir contents peer) (env : Api.Env V R) (hE : Entries env.lower mo norm dir at_) (typeOf : TypeOf AVal) (l : Link Received.Decoded S) (hr : SessionP.Ready l.st)
    (hD : Decides typeOf (onBytes mo) G) (hne : env.lower tripleAttr ≠ env.lower memberAttr) (ht : ∀ a ∈ [tripleAttr, memberAttr], ∃ t, typeOf a = .ok t)
    (hg : ∀ d x e, at_ d x = some e → GoodEntry env.lower G (seen e)) (how : Api.NgChange) (fld : Field) (strict : Bool) (dn : Str) (members : Members) (domain : Option Str)
    (hv : ∀ stands, Ng.Entries fld (Ng.orEmpty domain) members.toList stands → ∀ p ∈ stands, G p.1 (.text p.2)) :
    let r := Api.ngChange codec (fun d => d.1.1) peer env typeOf how fld strict l dn members domain
    ChangeMeans env.lower norm mo at_ how fld dn members.toList (Ng.orEmpty domain) (contents l.peer) r.2 (contents r.1.peer) ∧
    (∀ m ∈ members.toList, (∃ e, Ng.BadEntry fld m e) → r.1 = l ∧ ∃ e, r.2 = .error e) ∧
    (r.2 ≠ .error .tagError → r.2 ≠ .error .typeError → SessionP.Ready r.1.st) := by
  intro r
  simp only [r, Api.ngChange, attrsFn_eq']
  cases h : attrsFn fld members domain with
  | error e => exact ⟨rfl, fun _ _ _ => ⟨rfl, e, rfl⟩, fun _ _ => hr⟩
  | ok attrs =>
    obtain ⟨stands, k1, k2, k3, k4⟩ := attrs_spec fld members domain attrs h
    have hbad : ∀ m ∈ members.toList, (∃ e, Ng.BadEntry fld m e) → False := by
      intro m hm ⟨e, he⟩
      have key : ∀ (ms : List Member) (l : List (Str × Str)), Ng.Entries fld (Ng.orEmpty domain) ms l → ∀ m ∈ ms, ∃ a v, Ng.Entry fld (Ng.orEmpty domain) m a v := by
        intro ms l hl
        induction hl with
        | nil => nofun
        | cons hh _ ih =>
          intro m hm
          rcases List.mem_cons.1 hm with rfl | hm
          · exact ⟨_, _, hh⟩
          · exact ih m hm
      obtain ⟨a, v, hav⟩ := key _ _ k1 m hm
      cases he
      all_goals cases hav
      all_goals first
        | contradiction
        | (rename_i hx
           rcases hx with ⟨hx, _⟩ | ⟨t, _, hx2⟩
           · exact absurd (congrArg List.length hx) (by simp only [List.length_append, List.length_cons, List.length_nil]; omega)
           · exact absurd (congrArg List.length hx2) (by simp))
    have hn : ∀ {A : Type} (make : List Str → A), ((attrs.map (fun kv => (kv.1, make kv.2))).map (fun kv => env.lower kv.1)).Nodup := by
      intro A make
      rw [List.map_map]
      have : ∀ l : PDict Str (List Str), (∀ kv ∈ l, kv.1 = tripleAttr ∨ kv.1 = memberAttr) → (l.map Prod.fst).Nodup → (l.map ((fun kv : Str × A => env.lower kv.1) ∘ fun kv => (kv.1, make kv.2))).Nodup := by
        intro l
        induction l with
        | nil => intro _ _; simp
        | cons p l ih =>
          intro h1 h2
          simp only [List.map_cons, List.nodup_cons, List.mem_map, Function.comp] at h2 ⊢
          refine ⟨?_, ih (fun kv hkv => h1 kv (by simp [hkv])) h2.2⟩
          rintro ⟨q, hq, heq⟩
          refine h2.1 ⟨q, hq, ?_⟩
          rcases h1 p (by simp) with hp | hp <;> rcases h1 q (by simp [hq]) with hq' | hq' <;> rw [hp, hq'] at heq ⊢
          · exact absurd heq.symm hne
          · exact absurd heq hne
      exact this attrs (fun kv hkv => (k2 kv hkv).1) k4
    have hG : ∀ kv ∈ attrs, ∀ v ∈ kv.2, G kv.1 (.text v) := by
      intro kv hkv v hvv
      rw [(k2 kv hkv).2.1] at hvv
      simp only [Ng.valuesOf, List.mem_map, List.mem_filter] at hvv
      obtain ⟨p, ⟨hp, hpk⟩, rfl⟩ := hvv
      have := hv stands k1 p hp
      rwa [show p.1 = kv.1 by simpa using hpk] at this
    have hT : ∀ kv ∈ attrs, ∃ t, typeOf kv.1 = .ok t := by
      intro kv hkv
      rcases (k2 kv hkv).1 with q | q <;> rw [q] <;> exact ht _ (by simp)
    dsimp only
    cases how with
    | add =>
      dsimp only
      obtain ⟨q1, _, q3⟩ := c91_add_attrs hs env hE typeOf l hr dn hD strict (attrs.map (fun kv => (kv.1, kv.2.map AVal.text))) (hn (fun vs => vs.map AVal.text))
        (fun kv hkv => by obtain ⟨p, hp, rfl⟩ := List.mem_map.1 hkv; exact hT p hp)
        (fun kv hkv v hvv => by
          obtain ⟨p, hp, rfl⟩ := List.mem_map.1 hkv
          obtain ⟨w, hw, rfl⟩ := List.mem_map.1 hvv
          exact hG p hp w hw) none (fun e he => hg _ _ e he) nofun
      refine ⟨change_of hne .add fld dn members domain _ _ _ attrs h (fun vs => vs.map AVal.text) _ (fun a vs cur _ => ?_) q1, fun m hm hb => (hbad m hm hb).elim, q3⟩
      simp only [changed, bytes_text]
    | delete =>
      dsimp only
      obtain ⟨q1, _, q3⟩ := c91_delete_attrs hs env hE typeOf l hr dn hD strict (attrs.map (fun kv => (kv.1, Vals.list (kv.2.map AVal.text)))) (hn (fun vs => Vals.list (vs.map AVal.text)))
        (fun kv hkv => by obtain ⟨p, hp, rfl⟩ := List.mem_map.1 hkv; exact hT p hp)
        (fun kv hkv vs hvs v hvv => by
          obtain ⟨p, hp, rfl⟩ := List.mem_map.1 hkv
          cases hvs
          obtain ⟨w, hw, rfl⟩ := List.mem_map.1 hvv
          exact hG p hp w hw)
        (fun _ kv hkv => by
          obtain ⟨p, hp, rfl⟩ := List.mem_map.1 hkv
          intro hx
          simp only [Vals.list.injEq, List.map_eq_nil_iff] at hx
          exact (k2 p hp).2.2 hx) none (fun e he => hg _ _ e he) nofun
      refine ⟨change_of hne .delete fld dn members domain _ _ _ attrs h (fun vs => Vals.list (vs.map AVal.text)) _ (fun a vs cur hvs => ?_) q1, fun m hm hb => (hbad m hm hb).elim, q3⟩
      cases vs with
      | nil => exact absurd rfl hvs
      | cons v vs =>
        simp only [changed, Laurelin.Spec.EntriesS.deleting, List.map_cons]
        congr 1
        simp only [List.cons.injEq]
        exact ⟨rfl, bytes_text vs⟩
    | replace =>
      dsimp only
      obtain ⟨q1, q3⟩ := c91_replace_attrs hs env hE l hr dn strict (attrs.map (fun kv => (kv.1, Vals.list (kv.2.map AVal.text)))) (hn (fun vs => Vals.list (vs.map AVal.text)))
        (fun _ kv hkv => by
          obtain ⟨p, hp, rfl⟩ := List.mem_map.1 hkv
          intro hx
          simp only [Vals.list.injEq, List.map_eq_nil_iff] at hx
          exact (k2 p hp).2.2 hx) none
      refine ⟨change_of hne .replace fld dn members domain _ _ _ attrs h (fun vs => Vals.list (vs.map AVal.text)) _ (fun a vs cur hvs => ?_) q1, fun m hm hb => (hbad m hm hb).elim, q3⟩
      simp only [changed, Laurelin.Spec.EntriesS.replacing, bytes_text, List.map_eq_nil_iff, if_neg hvs]

/-- **C101 (replacing).** A `replace_…` call whose list names no member groups leaves the member groups as they are, and one whose list names nothing but member groups leaves the triples: the call does not
replace the members of the group as a whole. -/
theorem c101_replace_leaves (lower' norm' : Str → Str) (fld : Field) (dn : Str) (members : List Member) (domain : Str) (d d' : D) (ret : Api.Ret R) (e : Spec.Entry Bytes) (he : at_ d (norm' dn) = some e)
    (h : ChangeMeans lower' norm' mo at_ .replace fld dn members domain d (.ok ret) d') :
    ∃ e', at_ d' (norm' dn) = some e' ∧ ((∀ m ∈ members, ∀ g, m ≠ .text ('+' :: g)) → e' (lower' memberAttr) = e (lower' memberAttr)) ∧
      ((∀ m ∈ members, ∃ g, m = .text ('+' :: g)) → e' (lower' tripleAttr) = e (lower' tripleAttr)) := by
  obtain ⟨_, stands, h1, _, h3⟩ := h
  rw [he] at h3
  obtain ⟨e', h4, h5, _⟩ := h3
  have hno : tripleAttr ≠ memberAttr := by decide
  have key : ∀ (ms : List Member) (l : List (Str × Str)), Ng.Entries fld domain ms l → ∀ p ∈ l, ∃ m ∈ ms, Ng.Entry fld domain m p.1 p.2 := by
    intro ms l hl
    induction hl with
    | nil => nofun
    | cons hh _ ih =>
      intro p hp
      rcases List.mem_cons.1 hp with rfl | hp
      · exact ⟨_, by simp, hh⟩
      · obtain ⟨m, hm, r⟩ := ih p hp
        exact ⟨m, by simp [hm], r⟩
  have hnil : ∀ a, (∀ p ∈ stands, p.1 ≠ a) → Ng.valuesOf a stands = [] := by
    intro a ha
    simp only [Ng.valuesOf, List.map_eq_nil_iff, List.filter_eq_nil_iff]
    intro p hp hq
    exact ha p hp (by simpa using hq)
  refine ⟨e', h4, fun hm => ?_, fun hm => ?_⟩
  · rw [h5 memberAttr (by simp), hnil memberAttr (fun p hp hpa => ?_)]
    · simp [changed]
    · obtain ⟨m, hmm, hen⟩ := key _ _ h1 p hp
      rw [hpa] at hen
      have inv : ∀ (a v : Str) (m : Member), Ng.Entry fld domain m a v → a = memberAttr → ∃ g, m = .text ('+' :: g) := by
        intro a v m hh ha
        cases hh <;> first
          | exact ⟨_, rfl⟩
          | exact absurd ha hno
      obtain ⟨g, rfl⟩ := inv _ _ _ hen rfl
      exact hm _ hmm g rfl
  · rw [h5 tripleAttr (by simp), hnil tripleAttr (fun p hp hpa => ?_)]
    · simp [changed]
    · obtain ⟨m, hmm, hen⟩ := key _ _ h1 p hp
      rw [hpa] at hen
      obtain ⟨g, rfl⟩ := hm m hmm
      have inv : ∀ (a v : Str) (m : Member), Ng.Entry fld domain m a v → m = .text ('+' :: g) → a = memberAttr := by
        intro a v m hh hmg
        cases hh with
        | group => rfl
        | full ht =>
          cases hmg
          have : ∀ {t x y z : Str}, Ng.Triple t x y z → t.head? = some '(' := by
            rintro t x y z ⟨rfl, _⟩
            rfl
          rcases ht with ht | ⟨t, ht, htt⟩
          · have := this ht
            simp at this
          · have ht' := this ht
            cases t with
            | nil => cases ht'
            | cons c t =>
              simp only [List.head?_cons, Option.some.injEq] at ht'
              subst ht'
              simp at htt
        | user _ h2 _ => cases hmg; simp at h2
        | host _ h2 _ => cases hmg; simp at h2
        | hostTuple => cases hmg
        | pair => cases hmg
        | triple => cases hmg
      exact hno (inv _ _ _ hen rfl)

variable {under : Str → Str → Prop}

/-- **C101 (members).** Against any server that serves a directory: `get_users` and `get_hosts` change nothing. If they return names, the group was found and nothing else was, and the names are those in its triples,
in order; with `recursive`, followed by those of its member groups, one after the other, each in the same way. These are then names in triples of groups reached along member groups; and all of them, if a lookup
never has two answers. Only names in triples that are text and well formed are ever returned. -/
theorem c101_names_partial (hs : Serves dir contents peer) (env : Api.Env V R) (hT : Spec.ObjectS.Tree env.lower mo norm under dir at_) (typeOf : TypeOf AVal) (l : Link Received.Decoded S) (hr : SessionP.Ready l.st)
    (o : Api.Obj) (attrs : List Str) (ht : tripleAttr ∈ attrs) (hm : memberAttr ∈ attrs) (fld : Field) (depth : Nat) (cn : Str) (recursive : Bool) :
    let r := Api.ngNames codec (fun d => d.1.1) peer env typeOf (.ok o) attrs fld depth l cn recursive
    let group := Group norm dir at_ env.conn (contents l.peer) o attrs
    contents r.1.peer = contents l.peer ∧ SessionP.Ready r.1.st ∧
    ∀ names, r.2 = .ok names →
      if recursive then
        Expands env.lower group fld cn names ∧ (∀ x ∈ names, ∃ g, Reach env.lower group cn g ∧ NamedBy env.lower group fld g x) ∧
        ((∀ g e e', group g e → group g e' → e = e') → ∀ g x, Reach env.lower group cn g → NamedBy env.lower group fld g x → x ∈ names)
      else ∃ e, group cn e ∧ Direct env.lower fld e names := by
  intro r group
  simp only [r, Api.ngNames]
  rcases hg : Api.ngGet codec (fun d => d.1.1) peer env typeOf (.ok o) attrs l cn with ⟨l', x | n⟩
  · obtain ⟨g1, g2, _⟩ := get_step hs env hT typeOf l hr _ attrs cn _ _ hg
    exact ⟨g1, g2, nofun⟩
  · obtain ⟨g1, g2, g3⟩ := get_step hs env hT typeOf l hr _ attrs cn _ _ hg
    obtain ⟨o', e, ho, g4, g5⟩ := g3 n rfl
    cases ho
    obtain ⟨⟨k1, k2⟩, k3⟩ := obj_step hs env hT typeOf o attrs ht hm fld (contents l.peer) depth l' n cn recursive e g2 g1 g4 g5
    refine ⟨k2, k1, fun names hn => ?_⟩
    have := k3 names hn
    cases recursive with
    | false => exact ⟨e, g4, by simpa using this⟩
    | true =>
      have hE : Expands env.lower group fld cn names := by simpa using this
      exact ⟨hE, expands_sound hE, fun hfun g x hgr hnm => expands_complete hfun hE g x hgr hnm⟩

/-- **C101 (cycles).** If a group that is reached has itself among the groups reached from its members, the recursive methods never return: they raise, whatever the server answers. -/
theorem c101_cycle (hs : Serves dir contents peer) (env : Api.Env V R) (hT : Spec.ObjectS.Tree env.lower mo norm under dir at_) (typeOf : TypeOf AVal) (l : Link Received.Decoded S) (hr : SessionP.Ready l.st)
    (o : Api.Obj) (attrs : List Str) (ht : tripleAttr ∈ attrs) (hm : memberAttr ∈ attrs) (fld : Field) (depth : Nat) (cn : Str)
    (hfun : ∀ g e e', Group norm dir at_ env.conn (contents l.peer) o attrs g e → Group norm dir at_ env.conn (contents l.peer) o attrs g e' → e = e')
    (k m : Str) (hk : Reach env.lower (Group norm dir at_ env.conn (contents l.peer) o attrs) cn k) (hmk : MemberOf env.lower (Group norm dir at_ env.conn (contents l.peer) o attrs) m k)
    (hback : Reach env.lower (Group norm dir at_ env.conn (contents l.peer) o attrs) m k) :
    ∃ e, (Api.ngNames codec (fun d => d.1.1) peer env typeOf (.ok o) attrs fld depth l cn true).2 = .error e := by
  obtain ⟨_, _, h3⟩ := c101_names_partial (mo := mo) (norm := norm) (at_ := at_) (under := under) hs env hT typeOf l hr o attrs ht hm fld depth cn true
  cases h : (Api.ngNames codec (fun d => d.1.1) peer env typeOf (.ok o) attrs fld depth l cn true).2 with
  | error e => exact ⟨e, rfl⟩
  | ok names =>
    have h4 := h3 names h
    simp only [if_true] at h4
    exact absurd hback (acc_no_cycle (reach_acc hk (expands_acc hfun h4.1)) m hmk)

/-- **C101.** With no object tagged as the base of netgroups nothing is sent and the call raises. -/
theorem c101_no_base (peer : Peer S) (env : Api.Env V R) (typeOf : TypeOf AVal) (l : Link Received.Decoded S) (x : Err) (attrs : List Str) (fld : Field) (depth : Nat) (cn : Str) (recursive : Bool) :
    Api.ngNames codec (fun d => d.1.1) peer env typeOf (.error x) attrs fld depth l cn recursive = (l, .error x) := rfl

end

/-! ### Concrete cases -/
namespace NgP
open Netgroups WireP OverWire OverWireP EntP
open Laurelin.Spec.DirectoryS (Directory Serves)
open Laurelin.Spec.EntriesS (Entries)
open Laurelin.Spec.ObjectS (Tree)
open Laurelin.Spec.NgWire

/-- an entry with these triples and these member groups -/
def ngEnt (ts ms : List Bytes) : Spec.Entry Bytes := fun x => if x = lc tripleAttr then ts else if x = lc memberAttr then ms else []

/-- `cn=g,o` has the triple `(,u,)` and the member group `h`; `cn=h,o` the triple `(,v,)` and, if `d`, the member group `g` -/
def ngAt : Bool → Str → Option (Spec.Entry Bytes) := fun d x =>
  if x = str "cn=g,o" then some (ngEnt [utf8Enc (str "(,u,)")] [utf8Enc (str "h")])
  else if x = str "cn=h,o" then some (ngEnt [utf8Enc (str "(,v,)")] (if d then [utf8Enc (str "g")] else [])) else none

def ngDir : Directory Bool where
  updated _ _ _ := False
  holds _ _ _ _ := False
  finds d op found := ∃ dn e deref size time f attrs, ngAt d dn = some e ∧ op = Spec.OverWireS.readOp dn deref size time f attrs ∧ found = [(dn, listing lc e attrs)]

theorem ng_tree : Tree lc eqb (fun x => x) (fun _ _ => False) ngDir ngAt := by
  refine ⟨fun _ _ _ h => h.elim, fun _ _ _ _ _ _ _ _ _ _ _ h => h.elim, ?_⟩
  rintro d base scope deref size time f attrs found ⟨dn, e, deref', size', time', f', attrs', he, h1, rfl⟩ p hp
  simp only [Spec.OverWireS.readOp, Spec.Wire.Op.searchRequest.injEq] at h1
  have ha := map_utf8_inj _ _ h1.2.2.2.2.2.2.2
  subst ha
  simp only [List.mem_singleton] at hp
  subst hp
  exact ⟨e, he, listing_faithful lc e attrs⟩

def tlv (t : UInt8) (c : Bytes) : Bytes := t :: UInt8.ofNat c.length :: c

def ngAsk (mid : UInt8) (dn : Str) : Bytes :=
  tlv 48 ([2, 1, mid] ++ tlv 99 (tlv 4 (utf8Enc dn) ++ [10, 1, 0, 10, 1, 0, 2, 1, 2, 2, 1, 0, 1, 1, 0] ++ tlv 135 (utf8Enc (str "objectClass")) ++ tlv 48 (tlv 4 (utf8Enc tripleAttr) ++ tlv 4 (utf8Enc memberAttr))))

def ngAskMsg (mid : Int) (dn : Str) : Spec.Wire.Message := ⟨mid, Spec.OverWireS.readOp dn 0 2 0 (.present (utf8Enc (str "objectClass"))) [tripleAttr, memberAttr], none⟩

def ngAttrBytes (a v : Str) : Bytes := tlv 48 (tlv 4 (utf8Enc a) ++ tlv 49 (tlv 4 (utf8Enc v)))

def gBytes : Bytes := tlv 48 ([2, 1, 1] ++ tlv 100 (tlv 4 (utf8Enc (str "cn=g,o")) ++ tlv 48 (ngAttrBytes tripleAttr (str "(,u,)") ++ ngAttrBytes memberAttr (str "h"))))
def hBytes : Bytes := tlv 48 ([2, 1, 2] ++ tlv 100 (tlv 4 (utf8Enc (str "cn=h,o")) ++ tlv 48 (ngAttrBytes tripleAttr (str "(,v,)"))))

def gOut (s : Bool) : Bool × List Bytes := (s, [gBytes ++ [48, 12], [2, 1, 1, 101, 7, 10, 1, 0, 4, 0, 4, 0]])
def hOut (s : Bool) : Bool × List Bytes := if s = false then (s, [hBytes ++ [48, 12, 2, 1, 2, 101, 7, 10, 1, 0, 4, 0, 4, 0]]) else (s, [[48, 12, 2, 1, 2, 101, 7, 10, 1, 53, 4, 0, 4, 0]])

noncomputable def ngPeer : Peer Bool := fun s bs => if bs = ngAsk 1 (str "cn=g,o") then gOut s else
  (fun s bs => if bs = ngAsk 2 (str "cn=h,o") then hOut s else Classical.choose (c90_server_exists ngDir) s bs) s bs

theorem ng_serves : Serves ngDir (fun d => d) ngPeer := by
  have h0 := (Classical.choose_spec (c90_server_exists ngDir)).1
  have hg := WireR.has_enc (ngAskMsg 1 (str "cn=g,o")) (ngAsk 1 (str "cn=g,o")) (by decide +kernel)
  have hh := WireR.has_enc (ngAskMsg 2 (str "cn=h,o")) (ngAsk 2 (str "cn=h,o")) (by decide +kernel)
  refine DirP.override (DirP.override h0 (ngAskMsg 2 (str "cn=h,o")) (ngAsk 2 (str "cn=h,o")) hh.1 hh.2 hOut nofun nofun ?_) (ngAskMsg 1 (str "cn=g,o")) (ngAsk 1 (str "cn=g,o")) hg.1 hg.2 gOut nofun nofun ?_
  · intro s _
    cases s with
    | false =>
      have h1 := WireR.has_enc ⟨2, Spec.DirectoryS.entryOp (str "cn=h,o", [(tripleAttr, [utf8Enc (str "(,v,)")])]), none⟩ hBytes (by decide +kernel)
      have h2 := WireR.has_enc ⟨2, .searchResDone (said 0), none⟩ [48, 12, 2, 1, 2, 101, 7, 10, 1, 0, 4, 0, 4, 0] (by decide +kernel)
      exact ⟨rfl, [(str "cn=h,o", [(tripleAttr, [utf8Enc (str "(,v,)")])])], said 0, by decide, rfl, by decide, ⟨_, .cons h1 (.cons h2 .nil), by decide +kernel, by decide +kernel⟩,
        fun _ => ⟨str "cn=h,o", _, 0, 2, 0, _, [tripleAttr, memberAttr], rfl, rfl, by decide +kernel⟩, fun h => absurd h (by decide)⟩
    | true =>
      have h2 := WireR.has_enc ⟨2, .searchResDone (said 53), none⟩ [48, 12, 2, 1, 2, 101, 7, 10, 1, 53, 4, 0, 4, 0] (by decide +kernel)
      exact ⟨rfl, [], said 53, by decide, rfl, nofun, ⟨_, .cons h2 .nil, by decide, by decide⟩, fun h => absurd h (by decide), fun h => absurd h (by decide)⟩
  · rintro s -
    have h1 := WireR.has_enc ⟨1, Spec.DirectoryS.entryOp (str "cn=g,o", [(tripleAttr, [utf8Enc (str "(,u,)")]), (memberAttr, [utf8Enc (str "h")])]), none⟩ gBytes (by decide +kernel)
    have h2 := WireR.has_enc ⟨1, .searchResDone (said 0), none⟩ [48, 12, 2, 1, 1, 101, 7, 10, 1, 0, 4, 0, 4, 0] (by decide +kernel)
    exact ⟨rfl, [(str "cn=g,o", [(tripleAttr, [utf8Enc (str "(,u,)")]), (memberAttr, [utf8Enc (str "h")])])], said 0, by decide, rfl, by decide, ⟨_, .cons h1 (.cons h2 .nil), by cases s <;> decide +kernel, by cases s <;> decide +kernel⟩,
      fun _ => ⟨str "cn=g,o", _, 0, 2, 0, _, [tripleAttr, memberAttr], rfl, rfl, by decide +kernel⟩, fun h => absurd h (by decide)⟩

def ngBase : Api.Obj := ⟨some (str "o"), CIDict.empty, .one, some (str "cn")⟩

noncomputable def ngRun (recursive : Bool) :=
  Api.ngNames codec (fun d => d.1.1) ngPeer DirP.sampleEnv (fun _ => .ok (.default : AttrType AVal)) (.ok ngBase) [tripleAttr, memberAttr] .user 5 ⟨Session.St.init, false⟩ (str "g") recursive

set_option maxRecDepth 100000 in
theorem ng_run : (ngRun true).2 = .ok [str "u", str "v"] ∧ (ngRun false).2 = .ok [str "u"] := by
  constructor <;> decide +kernel

abbrev ngGroup (d : Bool) := Group (fun x => x) ngDir ngAt DirP.sampleEnv.conn d ngBase [tripleAttr, memberAttr]

theorem ng_fun (d : Bool) : ∀ g e e', ngGroup d g e → ngGroup d g e' → e = e' := by
  have key : ∀ g e, ngGroup d g e → ∃ child, Spec.ObjectS.Child ngBase (str "o") g child ∧ ngAt d child = some e := by
    rintro g e ⟨base, a, op, p, hb, hl, ⟨n, f, _, _, rfl⟩, hf, hat⟩
    cases hb
    cases hl with
    | one child _ hch =>
      obtain ⟨dn, e1, deref, size, time, f', attrs, h1, h2, h3⟩ := hf
      simp only [Spec.OverWireS.readOp, Spec.Wire.Op.searchRequest.injEq] at h2
      have h4 := utf8_injective _ _ h2.1
      simp only [List.cons.injEq, and_true] at h3
      subst h4 h3
      exact ⟨_, hch, hat⟩
    | sub full hs _ => cases hs
  intro g e e' h h'
  obtain ⟨c, hc, h1⟩ := key g e h
  obtain ⟨c', hc', h2⟩ := key g e' h'
  have : c = c' := by
    cases hc with
    | full hx =>
      cases hc' with
      | full _ => rfl
      | value a hx' _ => exact absurd hx hx'
    | value a hx ha =>
      cases hc' with
      | full hx' => exact absurd hx' hx
      | value a' _ ha' => rw [ha] at ha'; cases ha'; rfl
  subst this
  rw [h1] at h2
  cases h2
  rfl

theorem ng_group (d : Bool) (g : Str) (hg : '=' ∉ g) (e : Spec.Entry Bytes) (he : ngAt d (Spec.ObjectS.below (str "cn" ++ str "=" ++ g) (str "o")) = some e) : ngGroup d g e := by
  have hp : parseFilter .standard DirP.sampleEnv.conn.dfltFilter = .ok (.present (str "objectClass")) := by rfl
  exact ⟨str "o", _, _, _, rfl, .one _ rfl (.value (str "cn") hg rfl), ⟨0, _, rfl, .default rfl ((SreqP.parseFilter_iff _ _ _).1 hp), rfl⟩, ⟨_, e, _, _, _, _, [tripleAttr, memberAttr], he, rfl, rfl⟩, he⟩

/-- two groups, the one a member of the other -/
example : (∀ x, x ∈ [str "u", str "v"] ↔ ∃ g, Reach lc (ngGroup false) (str "g") g ∧ NamedBy lc (ngGroup false) .user g x) ∧ (ngRun true).1.peer = false := by
  obtain ⟨h1, _, h3⟩ := c101_names_partial ng_serves DirP.sampleEnv ng_tree (fun _ => .ok (.default : AttrType AVal)) ⟨Session.St.init, false⟩ SessionP.ready_init ngBase [tripleAttr, memberAttr] (by simp) (by simp) .user 5 (str "g") true
  have h4 := h3 _ ng_run.1
  simp only [if_true] at h4
  exact ⟨fun x => ⟨h4.2.1 x, fun ⟨g, hg, hn⟩ => h4.2.2 (ng_fun false) g x hg hn⟩, h1⟩

/-- each a member of the other -/
example (depth : Nat) : ∃ e, (Api.ngNames codec (fun d => d.1.1) ngPeer DirP.sampleEnv (fun _ => .ok (.default : AttrType AVal)) (.ok ngBase) [tripleAttr, memberAttr] .user depth ⟨Session.St.init, true⟩ (str "g") true).2 = .error e := by
  have m1 : MemberOf lc (ngGroup true) (str "h") (str "g") := ⟨_, ng_group true (str "g") (by decide) _ (if_pos rfl), by decide +kernel⟩
  have m2 : MemberOf lc (ngGroup true) (str "g") (str "h") := ⟨_, ng_group true (str "h") (by decide) _ ((if_neg (by decide)).trans (if_pos rfl)), by decide +kernel⟩
  exact c101_cycle ng_serves DirP.sampleEnv ng_tree (fun _ => .ok (.default : AttrType AVal)) ⟨Session.St.init, true⟩ SessionP.ready_init ngBase [tripleAttr, memberAttr] (by simp) (by simp) .user depth (str "g")
    (ng_fun true) (str "g") (str "h") (.refl _) m1 (.step _ _ _ m2 (.refl _))

/-! A group to which a user is added. -/

def upAt : List Bytes → Str → Option (Spec.Entry Bytes) := fun d x => if x = str "o" then some (ngEnt d []) else none

def upDir : Directory (List Bytes) where
  updated d op d' := ∃ cs, op = Spec.OverWireS.modifyOp (str "o") cs ∧ srvModify lc eqb (ngEnt d []) cs = .ok (ngEnt d' [])
  holds _ _ _ _ := False
  finds _ _ _ := False

theorem up_entries : Entries lc eqb (fun x => x) upDir upAt := by
  refine ⟨?_, fun _ _ _ _ _ _ _ _ h => h.elim⟩
  rintro d dn cs d' ⟨cs', h1, h3⟩
  have hdn : dn = str "o" := by
    simp only [Spec.OverWireS.modifyOp, Spec.Wire.Op.modifyRequest.injEq] at h1
    exact utf8_injective _ _ h1.1
  subst hdn
  have := modifyOp_inj _ _ _ h1
  subst this
  exact ⟨ngEnt d [], ngEnt d' [], if_pos rfl, h3, if_pos rfl, fun x hx => by simp only [upAt, if_neg hx]⟩

def upBytes : Bytes := tlv 48 ([2, 1, 1] ++ tlv 102 (tlv 4 (utf8Enc (str "o")) ++ tlv 48 (tlv 48 ([10, 1, 0] ++ ngAttrBytes tripleAttr (str "(,v,)")))))
def upMsg : Spec.Wire.Message := ⟨1, .modifyRequest (utf8Enc (str "o")) [(0, ⟨utf8Enc tripleAttr, [utf8Enc (str "(,v,)")]⟩)], none⟩
def upOut (s : List Bytes) : List Bytes × List Bytes :=
  if s = [utf8Enc (str "(,u,)")] then ([utf8Enc (str "(,u,)"), utf8Enc (str "(,v,)")], [[48, 12, 2, 1, 1, 103, 7, 10, 1, 0, 4, 0, 4, 0]]) else (s, [[48, 12, 2, 1, 1, 103, 7, 10, 1, 53, 4, 0, 4, 0]])

noncomputable def upPeer : Peer (List Bytes) := fun s bs => if bs = upBytes then upOut s else Classical.choose (c90_server_exists upDir) s bs

theorem up_serves : Serves upDir (fun d => d) upPeer := by
  have h0 := (Classical.choose_spec (c90_server_exists upDir)).1
  have ha := WireR.has_enc upMsg upBytes (by decide +kernel)
  refine DirP.override h0 upMsg upBytes ha.1 ha.2 upOut ?_ nofun (fun _ h => h.elim)
  intro s resp hresp
  cases hresp
  by_cases hs : s = [utf8Enc (str "(,u,)")]
  · subst hs
    have hr := WireR.has_enc ⟨1, .modifyResponse (said 0), none⟩ [48, 12, 2, 1, 1, 103, 7, 10, 1, 0, 4, 0, 4, 0] (by decide +kernel)
    refine ⟨said 0, ⟨_, .cons hr .nil, by decide, by decide⟩, .inl ⟨rfl, [⟨.add, tripleAttr, [utf8Enc (str "(,v,)")]⟩], rfl, ?_⟩⟩
    simp only [srvModify, srvChange]
    rw [show ngEnt [utf8Enc (str "(,u,)")] [] (lc tripleAttr) = [utf8Enc (str "(,u,)")] from if_pos rfl,
      show srvAdd (eqb tripleAttr) [utf8Enc (str "(,u,)")] [utf8Enc (str "(,v,)")] = .ok [utf8Enc (str "(,u,)"), utf8Enc (str "(,v,)")] by decide]
    simp only [Except.ok.injEq]
    funext x
    simp only [Entry.put, ngEnt, upOut, if_true]
    by_cases hx : x = lc tripleAttr
    · rw [if_pos hx, if_pos hx]
    · rw [if_neg hx, if_neg hx, if_neg hx]
  · simp only [upOut, if_neg hs]
    have hr := WireR.has_enc ⟨1, .modifyResponse (said 53), none⟩ [48, 12, 2, 1, 1, 103, 7, 10, 1, 53, 4, 0, 4, 0] (by decide +kernel)
    exact ⟨said 53, ⟨_, .cons hr .nil, by decide, by decide⟩, .inr ⟨by decide, trivial⟩⟩

noncomputable def upRun := Api.ngChange codec (fun d => d.1.1) upPeer DirP.sampleEnv (fun _ => .ok (.default : AttrType AVal)) .add .user true ⟨Session.St.init, [utf8Enc (str "(,u,)")]⟩ (str "o") (.one (.text (str "v"))) none

set_option maxRecDepth 100000 in
theorem up_done : isDone upRun.2 = true := by decide +kernel

theorem lc_attrs : lc tripleAttr ≠ lc memberAttr := by decide

example : upRun.2 = .ok .done ∧ ChangeMeans lc (fun x => x) eqb upAt .add .user (str "o") [.text (str "v")] [] [utf8Enc (str "(,u,)")] upRun.2 upRun.1.peer := by
  obtain ⟨h, _, _⟩ := c101_change_partial (G := fun _ v => Spec.Wire.Shows v.bytes v) up_serves DirP.sampleEnv up_entries (fun _ => .ok (.default : AttrType AVal)) ⟨Session.St.init, [utf8Enc (str "(,u,)")]⟩ SessionP.ready_init
    OverWireP.octets_decide lc_attrs (fun _ _ => ⟨_, rfl⟩) (fun _ _ e _ => ObjP.seen_good lc e) .add .user true (str "o") (.one (.text (str "v"))) none (fun _ _ p _ => rfl)
  exact ⟨isDone_eq _ up_done, h⟩

end NgP
end Laurelin.Props
