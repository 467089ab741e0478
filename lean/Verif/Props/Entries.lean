import Verif.Props.Directory
import Verif.Spec.Entries
import Verif.Model.ApiAttrs
/-!
# C91 `add_attrs`, `delete_attrs`, `replace_attrs` of a connection change the entry as asked, or not at all
-/
set_option linter.unusedSectionVars false
namespace Laurelin.Props
open Laurelin Codec Asn1 Rfc4511 Spec
namespace EntP
open Laurelin.Wire WireP WireR OverWire OverWireP Spec.OverWireS Spec.DirectoryS Spec.EntriesS
section
variable {V R S D : Type} {dir : Directory D} {contents : S → D} {peer : Peer S} {lower norm : Str → Str} {mo : Str → Bytes → Bytes → Bool} {at_ : D → Str → Option (Spec.Entry Bytes)}

/-- each change of an accepted request was accepted, with the values its attribute had before the request -/
theorem accepts (cs : List (Change Bytes)) : ∀ e e', srvModify lower mo e cs = .ok e' → (cs.map (fun c => lower c.attr)).Nodup →
    ∀ c ∈ cs, ∃ e1 e2, srvChange lower mo e1 c = .ok e2 ∧ e1 (lower c.attr) = e (lower c.attr) := by
  induction cs with
  | nil => intro _ _ _ _; nofun
  | cons c cs ih =>
    intro e e' h hn d hd
    simp only [List.map_cons, List.nodup_cons] at hn
    simp only [srvModify] at h
    cases h1 : srvChange lower mo e c with
    | error x => rw [h1] at h; cases h
    | ok e1 =>
      rw [h1] at h
      rcases List.mem_cons.1 hd with rfl | hd
      · exact ⟨e, e1, h1, rfl⟩
      · obtain ⟨f1, f2, k1, k2⟩ := ih e1 e' h hn.2 d hd
        refine ⟨f1, f2, k1, ?_⟩
        rw [k2, srvChange_one e e1 c h1]
        simp only [Entry.put]
        rw [if_neg (fun he : lower d.attr = lower c.attr => hn.1 (he ▸ List.mem_map.2 ⟨d, hd, rfl⟩))]

theorem add_accepted (m : Bytes → Bytes → Bool) (vs : List Bytes) : ∀ cur l, srvAdd m cur vs = .ok l → ∀ v ∈ vs, cur.any (fun x => m x v) = false := by
  induction vs with
  | nil => intro _ _ _; nofun
  | cons v vs ih =>
    intro cur l h w hw
    simp only [srvAdd] at h
    by_cases hc : cur.any (fun x => m x v) = true
    · rw [if_pos hc] at h; cases h
    · rw [if_neg hc] at h
      rcases List.mem_cons.1 hw with rfl | hw
      · simpa using hc
      · have := ih _ _ h w hw
        rw [List.any_append, Bool.or_eq_false_iff] at this
        exact this.1

theorem delete_accepted (m : Bytes → Bytes → Bool) (vs : List Bytes) : ∀ cur l, srvDelete m cur vs = .ok l → ∀ v ∈ vs, cur.any (fun x => m x v) = true := by
  induction vs with
  | nil => intro _ _ _; nofun
  | cons v vs ih =>
    intro cur l h w hw
    simp only [srvDelete] at h
    by_cases hc : cur.any (fun x => m x v) = true
    · rw [if_pos hc] at h
      rcases List.mem_cons.1 hw with rfl | hw
      · exact hc
      · have := ih _ _ h w hw
        rw [List.any_eq_true] at this ⊢
        obtain ⟨x, hx, hm⟩ := this
        exact ⟨x, dropFirst_mem _ _ x hx, hm⟩
    · rw [if_neg hc] at h; cases h

theorem change_delete (e1 e2 : Spec.Entry Bytes) (a : Str) (vs : List Bytes) (hne : vs ≠ []) (h : srvChange lower mo e1 ⟨.delete, a, vs⟩ = .ok e2) : ∃ l, srvDelete (mo a) (e1 (lower a)) vs = .ok l := by
  simp only [srvChange, if_neg hne] at h
  split at h
  · exact ⟨_, by assumption⟩
  · cases h

/-- what is sent is what is meant, unless empty lists are ignored -/
theorem changes_meant (o : EmptyOpts) (mods : List (Mod AVal)) (h : o.ignore = true → ∀ md ∈ mods, md.vals ≠ .list []) : mods.filterMap (changeOf o) = (meant mods).map toBytes := by
  induction mods with
  | nil => rfl
  | cons md mods ih =>
    obtain ⟨op, a, vs⟩ := md
    have hm : changeOf o ⟨op, a, vs⟩ = some (toBytes ⟨op, a, valsList vs⟩) := by
      match op, vs with
      | .add, .deleteAll | .replace, .deleteAll | .delete, .deleteAll => rfl
      | .add, .list (v :: l) | .replace, .list (v :: l) | .delete, .list (v :: l) => rfl
      | .add, .list [] => rfl
      | .replace, .list [] | .delete, .list [] =>
        have hi : o.ignore = false := by
          cases hi : o.ignore with
          | false => rfl
          | true => exact absurd rfl (h hi _ (List.mem_cons_self ..))
        simp [changeOf, hi, toBytes, valsList]
    rw [List.filterMap_cons_some hm, ih (fun hi md hmd => h hi md (List.mem_cons_of_mem _ hmd))]
    rfl

/-- what a successful `modify` with these modifications does to the entry -/
theorem mods_effect {A : Type} (hE : Entries lower mo norm dir at_) (d d' : D) (dn : Str) (named : List (Str × A)) (f : Str × A → Option (Mod AVal)) (hf : ∀ kv md, f kv = some md → md.attr = kv.1)
    (hn : (named.map (fun kv => lower kv.1)).Nodup) (g : Str → A → List Bytes → List Bytes)
    (h : ((meant (named.filterMap f)).map toBytes = [] ∧ d' = d) ∨ ((meant (named.filterMap f)).map toBytes ≠ [] ∧ dir.updated d (Spec.OverWireS.modifyOp dn ((meant (named.filterMap f)).map toBytes)) d'))
    (hsome : ∀ e, at_ d (norm dn) = some e → ∀ kv ∈ named, ∀ md, f kv = some md → (∃ e1 e2, srvChange lower mo e1 (toBytes ⟨md.op, md.attr, valsList md.vals⟩) = .ok e2 ∧ e1 (lower kv.1) = e (lower kv.1)) →
      one mo (toBytes ⟨md.op, md.attr, valsList md.vals⟩) (e (lower kv.1)) = g kv.1 kv.2 (e (lower kv.1)))
    (hnone : ∀ e, at_ d (norm dn) = some e → ∀ kv ∈ named, f kv = none → g kv.1 kv.2 (e (lower kv.1)) = e (lower kv.1)) :
    AttrsEffect (R := R) lower norm at_ d dn named g (.ok .done) d' := by
  have key : ∀ e e', at_ d (norm dn) = some e → srvModify lower mo e ((meant (named.filterMap f)).map toBytes) = .ok e' → Becomes lower e e' named g := by
    intro e e' he hm
    refine becomes named f hf hn e e' hm g (fun kv hkv md hmd => hsome e he kv hkv md hmd ?_) (hnone e he)
    obtain ⟨e1, e2, k1, k2⟩ := accepts _ _ _ hm (wanted_nodup named f hf hn) (toBytes ⟨md.op, md.attr, valsList md.vals⟩) (by
      simp only [meant, List.map_map, List.mem_map, List.mem_filterMap]
      exact ⟨md, ⟨kv, hkv, hmd⟩, rfl⟩)
    refine ⟨e1, e2, k1, ?_⟩
    rw [← hf _ _ hmd]
    exact k2
  refine ⟨rfl, ?_⟩
  rcases h with ⟨h0, rfl⟩ | ⟨_, h⟩
  · refine ⟨fun _ _ => rfl, ?_⟩
    cases he : at_ d' (norm dn) with
    | none => rfl
    | some e => exact ⟨e, rfl, key e e he (by rw [h0]; rfl)⟩
  · obtain ⟨e, e', h1, h2, h3, h4⟩ := hE.modify _ _ _ _ h
    refine ⟨h4, ?_⟩
    rw [h1]
    exact ⟨e', h3, key e e' h1 h2⟩

/-! ## Reading the entry -/

theorem shows_shown (l : List Bytes) : ∀ l', Pairwise2 Spec.Wire.Shows l l' → l' = l.map shown := by
  induction l with
  | nil => intro l' h; cases h; rfl
  | cons b l ih =>
    intro l' h
    cases h with
    | cons h1 h2 =>
      rename_i v l''
      rw [ih l'' h2, List.map_cons]
      have hb : v.bytes = b := by
        cases v with
        | text s => exact h1.symm
        | raw c => exact h1.1
      subst hb
      rw [shown_bytes v h1]

theorem fetched (e : Spec.Entry Bytes) (names : List Str) (got : List (Str × List Bytes)) (attrs : PDict Str (List AVal)) (hf : Faithful lower e names got)
    (h : Pairwise2 (fun (p : Str × List Bytes) (q : Str × List AVal) => q.1 = p.1 ∧ Pairwise2 Spec.Wire.Shows p.2 q.2) got attrs) : FetchOf lower (seen e) names attrs := by
  have hmap : ∀ (l : List (Str × List Bytes)) (l' : PDict Str (List AVal)), Pairwise2 (fun (p : Str × List Bytes) (q : Str × List AVal) => q.1 = p.1 ∧ Pairwise2 Spec.Wire.Shows p.2 q.2) l l' →
      l' = l.map (fun p => (p.1, p.2.map shown)) := by
    intro l
    induction l with
    | nil => intro l' h; cases h; rfl
    | cons p l ih =>
      intro l' h
      cases h with
      | cons h1 h2 =>
        rename_i q l''
        rw [ih l'' h2, List.map_cons]
        obtain ⟨q1, q2⟩ := q
        obtain ⟨k1, k2⟩ := h1
        simp only at k1 k2
        rw [k1, shows_shown _ _ k2]
  rw [hmap got attrs h]
  refine ⟨fun kv hkv => ?_, fun a ha hne => ?_⟩
  · obtain ⟨p, hp, rfl⟩ := List.mem_map.1 hkv
    show p.2.map shown = (e (lower p.1)).map shown
    rw [hf.sound p hp]
  · obtain ⟨p, hp, he⟩ := hf.complete a ha (fun h0 => hne (by show (e (lower a)).map shown = []; rw [h0]; rfl))
    exact ⟨(p.1, p.2.map shown), List.mem_map.2 ⟨p, hp, rfl⟩, he⟩

theorem view_empty {G : Str → AVal → Prop} (e : Spec.Entry AVal) (he : GoodEntry lower G e) : View lower G (⟨CIDict.empty, e⟩ : Props.Session AVal) ∧ ∀ a, AttrsDict.getAttr lower (CIDict.empty : AttrsDict AVal) a = [] := by
  have h0 : ∀ a, AttrsDict.getAttr lower (CIDict.empty : AttrsDict AVal) a = [] := fun a => by
    rw [getAttr_abs lower _ (CIDict.inv_empty lower)]
    show (CIDict.abs CIDict.empty (lower a)).getD [] = []
    rw [CIDict.abs_empty]
    rfl
  exact ⟨⟨CIDict.inv_empty lower, he, fun a h => absurd (h0 a) h⟩, h0⟩

/-- the object fetched shows the attributes named as the entry has them -/
theorem current_step {G : Str → AVal → Prop} (hs : Serves dir contents peer) (env : Api.Env V R) (hE : Entries env.lower mo norm dir at_) (l : Link Received.Decoded S) (hr : SessionP.Ready l.st) (dn : Str)
    (hg : ∀ e, at_ (contents l.peer) (norm dn) = some e → GoodEntry env.lower G (seen e)) (names : List Str) :
    let x := Api.currentFor codec (fun d => d.1.1) peer env l dn names
    contents x.1.peer = contents l.peer ∧ (x.2 ≠ .error .tagError → x.2 ≠ .error .typeError → SessionP.Ready x.1.st) ∧
    ∀ d, x.2 = .ok d → ∃ e, at_ (contents l.peer) (norm dn) = some e ∧ GoodAttrs env.lower G d ∧ ∀ a ∈ names, AttrsDict.getAttr env.lower d a = seen e (env.lower a) := by
  intro x
  simp only [x, Api.currentFor]
  have h := DirP.getOne_step env hs l hr dn (some names) []
  revert h
  rcases Api.getOne codec (fun d => d.1.1) peer env l dn (some names) [] with ⟨l', e | i⟩
  · rintro ⟨h1, _, _, _, h3⟩
    exact ⟨h1, fun a b => h3 (fun h => a (by simp only [Except.error.injEq] at h; rw [h])) (fun h => b (by simp only [Except.error.injEq] at h; rw [h])), nofun⟩
  · rintro ⟨h1, h2, _, _, h3⟩
    refine ⟨h1, fun _ _ => h3 nofun nofun, fun d hd => ?_⟩
    obtain ⟨op, p, ⟨n, f, k1, _, rfl⟩, k3, k4⟩ := h2 i rfl
    cases k4 with
    | cons k4 _ =>
      obtain ⟨attrs, rfl, k5⟩ := k4
      simp only [Api.objectOf, Except.ok.injEq] at hd
      subst hd
      have hn : n = 0 := by
        simp only [Api.getArgs, Spec.Wire.scopeNumber, Option.some.injEq] at k1
        exact k1.symm
      subst hn
      obtain ⟨e, m1, m2⟩ := hE.read _ dn _ _ _ _ names _ k3 p (by simp)
      refine ⟨e, m1, ?_⟩
      obtain ⟨v0, v1⟩ := view_empty (lower := env.lower) (seen e) (hg e m1)
      obtain ⟨c1, _, c3⟩ := c10_refresh_step env.lower ⟨CIDict.empty, seen e⟩ v0 names attrs (fetched e names p.2 attrs m2 k5)
      exact ⟨view_good env.lower c1, fun a ha => c3 a ha (v1 a)⟩

/-- `modify` as part of these calls -/
theorem modify_step (hs : Serves dir contents peer) (env : Api.Env V R) (l : Link Received.Decoded S) (hr : SessionP.Ready l.st) (dn : Str) (mods : List (Mod AVal)) (current : Option (AttrsDict AVal))
    (hi : env.opts.ignore = true → ∀ md ∈ mods, md.vals ≠ .list []) :
    let x := Api.modifyWith codec (fun d => d.1.1) peer env l dn current (.ok mods)
    (x.2 ≠ .error .tagError → x.2 ≠ .error .typeError → SessionP.Ready x.1.st) ∧
    match x.2 with
    | .error _ => contents x.1.peer = contents l.peer
    | .ok ret => ret = .done ∧ (((meant mods).map toBytes = [] ∧ contents x.1.peer = contents l.peer) ∨
        ((meant mods).map toBytes ≠ [] ∧ dir.updated (contents l.peer) (Spec.OverWireS.modifyOp dn ((meant mods).map toBytes)) (contents x.1.peer))) := by
  intro x
  simp only [x, Api.modifyWith]
  have h := DirP.call_step env hs l hr (.modify dn mods current)
  revert h
  rcases Api.call codec (fun d => d.1.1) peer env l (.modify dn mods current) with ⟨l', e | ret⟩
  · rintro ⟨h1, h2⟩
    exact ⟨h2, h1⟩
  · rintro ⟨h1, h2⟩
    refine ⟨h2, ?_⟩
    obtain ⟨k1, k2⟩ := h1
    rw [changes_meant _ _ hi] at k1
    exact ⟨k2, k1⟩

/-- the effect of a modify with the modifications made of the attributes named -/
theorem with_step {A : Type} (hs : Serves dir contents peer) (env : Api.Env V R) (hE : Entries env.lower mo norm dir at_) (l : Link Received.Decoded S) (hr : SessionP.Ready l.st) (dn : Str)
    (named : List (Str × A)) (f : Str × A → Option (Mod AVal)) (hf : ∀ kv md, f kv = some md → md.attr = kv.1) (hn : (named.map (fun kv => env.lower kv.1)).Nodup) (g : Str → A → List Bytes → List Bytes)
    (current : Option (AttrsDict AVal)) (hi : env.opts.ignore = true → ∀ md ∈ named.filterMap f, md.vals ≠ .list [])
    (hsome : ∀ e, at_ (contents l.peer) (norm dn) = some e → ∀ kv ∈ named, ∀ md, f kv = some md →
      (∃ e1 e2, srvChange env.lower mo e1 (toBytes ⟨md.op, md.attr, valsList md.vals⟩) = .ok e2 ∧ e1 (env.lower kv.1) = e (env.lower kv.1)) →
      one mo (toBytes ⟨md.op, md.attr, valsList md.vals⟩) (e (env.lower kv.1)) = g kv.1 kv.2 (e (env.lower kv.1)))
    (hnone : ∀ e, at_ (contents l.peer) (norm dn) = some e → ∀ kv ∈ named, f kv = none → g kv.1 kv.2 (e (env.lower kv.1)) = e (env.lower kv.1)) :
    let x := Api.modifyWith codec (fun d => d.1.1) peer env l dn current (.ok (named.filterMap f))
    AttrsEffect env.lower norm at_ (contents l.peer) dn named g x.2 (contents x.1.peer) ∧ (x.2 ≠ .error .tagError → x.2 ≠ .error .typeError → SessionP.Ready x.1.st) := by
  intro x
  have h := modify_step hs env l hr dn (named.filterMap f) current hi
  revert h
  simp only [x]
  rcases Api.modifyWith codec (fun d => d.1.1) peer env l dn current (.ok (named.filterMap f)) with ⟨l', e | ret⟩
  · rintro ⟨h1, h2⟩
    exact ⟨h2, h1⟩
  · rintro ⟨h1, rfl, h2⟩
    exact ⟨mods_effect hE _ _ dn named f hf hn g h2 hsome hnone, h1⟩

/-- adding, knowing some values that are there -/
theorem add_step {G : Str → AVal → Prop} (hs : Serves dir contents peer) (env : Api.Env V R) (hE : Entries env.lower mo norm dir at_) (typeOf : TypeOf AVal) (hD : Decides typeOf (onBytes mo) G)
    (l : Link Received.Decoded S) (hr : SessionP.Ready l.st) (dn : Str) (new : List (Str × List AVal)) (hn : (new.map (fun kv => env.lower kv.1)).Nodup) (ht : ∀ kv ∈ new, ∃ t, typeOf kv.1 = .ok t)
    (hv : ∀ kv ∈ new, ∀ v ∈ kv.2, G kv.1 v) (d : AttrsDict AVal) (hg : GoodAttrs env.lower G d)
    (hd : ∀ e, at_ (contents l.peer) (norm dn) = some e → ∀ kv ∈ new, ∀ v ∈ AttrsDict.getAttr env.lower d kv.1, v.bytes ∈ e (env.lower kv.1)) :
    let x := Api.modifyWith codec (fun d => d.1.1) peer env l dn (some d) (addModlist env.lower typeOf d (new.map (fun kv => (kv.1, .list kv.2))))
    AttrsEffect env.lower norm at_ (contents l.peer) dn new (fun a vs cur => withAdded (mo a) cur (vs.map AVal.bytes)) x.2 (contents x.1.peer) ∧
    (x.2 ≠ .error .tagError → x.2 ≠ .error .typeError → SessionP.Ready x.1.st) := by
  have hn1 : (new.map Prod.fst).Nodup := by
    rw [show new.map (fun p => env.lower p.1) = (new.map Prod.fst).map env.lower by rw [List.map_map]; rfl] at hn
    exact List.Pairwise.of_map _ (fun a b hab hc => hab (by rw [hc])) hn
  have hmod := c05_add_modlist env.lower typeOf (onBytes mo) G hD d hg new hn1 (fun a ha => by
    obtain ⟨kv, hkv, rfl⟩ := List.mem_map.1 ha
    exact ht kv hkv) hv
  dsimp only
  cases hmods : addModlist env.lower typeOf d (new.map (fun kv => (kv.1, Vals.list kv.2))) with
  | error e => exact ⟨rfl, fun _ _ => hr⟩
  | ok mods =>
    have hm2 : mods = addWanted env.lower (onBytes mo) d new := by
      by_cases hb : ∃ kv ∈ new, kv.2 = [] ∧ AttrsDict.getAttr env.lower d kv.1 = []
      · rw [hmod.2 hb] at hmods; simp at hmods
      · rw [hmod.1 (fun kv hkv he hx => hb ⟨kv, hkv, he, hx⟩)] at hmods
        simpa using hmods.symm
    subst hm2
    have hknown : ∀ e, at_ (contents l.peer) (norm dn) = some e → ∀ kv ∈ new, ∀ v, knows env.lower (onBytes mo) d kv.1 v = true → (e (env.lower kv.1)).any (fun x => mo kv.1 x v.bytes) = true := by
      intro e he kv hkv v hk
      simp only [knows, List.any_eq_true] at hk ⊢
      obtain ⟨x, hx, hm⟩ := hk
      exact ⟨x.bytes, hd e he kv hkv x hx, hm⟩
    refine with_step hs env hE l hr dn new _ (fun kv md hmd => ?_) hn _ (some d) (fun _ md hmd => ?_) (fun e he kv hkv md hmd hacc => ?_) (fun e he kv hkv hmd => ?_)
    · dsimp only at hmd
      split at hmd
      · cases hmd
      · cases hmd; rfl
    · obtain ⟨kv, _, hkv⟩ := List.mem_filterMap.1 hmd
      dsimp only at hkv
      split at hkv
      · cases hkv
      · rename_i hu
        cases hkv
        intro h0
        simp only [Vals.list.injEq] at h0
        exact hu h0
    · dsimp only at hmd
      split at hmd
      · cases hmd
      · rename_i hu
        cases hmd
        obtain ⟨e1, e2, a1, a2⟩ := hacc
        have a3 : ∀ v ∈ (kv.2.filter (fun v => !knows env.lower (onBytes mo) d kv.1 v)).map AVal.bytes, (e (env.lower kv.1)).any (fun x => mo kv.1 x v) = false := by
          simp only [srvChange, toBytes, valsList] at a1
          split at a1
          · rename_i l0 hl0
            have := add_accepted _ _ _ _ hl0
            rw [a2] at this
            exact this
          · cases a1
        show e (env.lower kv.1) ++ (kv.2.filter (fun v => !knows env.lower (onBytes mo) d kv.1 v)).map AVal.bytes = _
        rw [withAdded, ← filter_bytes (fun v => !(e (env.lower kv.1)).any (fun x => mo kv.1 x v))]
        congr 2
        apply List.filter_congr
        intro v hv'
        congr 1
        cases hk : knows env.lower (onBytes mo) d kv.1 v with
        | true => exact (hknown e he kv hkv v hk).symm
        | false => exact (a3 v.bytes (List.mem_map.2 ⟨v, List.mem_filter.2 ⟨hv', by rw [hk]; rfl⟩, rfl⟩)).symm
    · dsimp only at hmd
      split at hmd
      · rename_i hu
        rw [withAdded]
        have : (kv.2.map AVal.bytes).filter (fun v => !(e (env.lower kv.1)).any (fun x => mo kv.1 x v)) = [] := by
          rw [List.filter_eq_nil_iff]
          intro b hb
          obtain ⟨v, hv', rfl⟩ := List.mem_map.1 hb
          have hk : knows env.lower (onBytes mo) d kv.1 v = true := by
            have := List.filter_eq_nil_iff.1 hu v hv'
            simpa using this
          rw [hknown e he kv hkv v hk]
          decide
        rw [this, List.append_nil]
      · cases hmd

/-- adding without looking -/
theorem add_strict (hs : Serves dir contents peer) (env : Api.Env V R) (hE : Entries env.lower mo norm dir at_) (l : Link Received.Decoded S) (hr : SessionP.Ready l.st) (dn : Str)
    (new : List (Str × List AVal)) (hn : (new.map (fun kv => env.lower kv.1)).Nodup) :
    let x := Api.modifyWith codec (fun d => d.1.1) peer env l dn none (modlist .add (new.map (fun kv => (kv.1, .vals (.list kv.2)))))
    AttrsEffect env.lower norm at_ (contents l.peer) dn new (fun a vs cur => withAdded (mo a) cur (vs.map AVal.bytes)) x.2 (contents x.1.peer) ∧
    (x.2 ≠ .error .tagError → x.2 ≠ .error .typeError → SessionP.Ready x.1.st) := by
  have hml := c07_modlist .add (new.map (fun kv => (kv.1, RawVals.vals (.list kv.2))))
  dsimp only
  by_cases hb : ∃ kv ∈ new, kv.2 = []
  · rw [hml.1 ⟨rfl, by
      obtain ⟨kv, hkv, h0⟩ := hb
      exact ⟨_, List.mem_map.2 ⟨kv, hkv, rfl⟩, by simp [normalise, Vals.len, h0]⟩⟩]
    exact ⟨rfl, fun _ _ => hr⟩
  · rw [hml.2 (fun ⟨_, kv, hkv, h0⟩ => by
      obtain ⟨kv', hkv', rfl⟩ := List.mem_map.1 hkv
      exact hb ⟨kv', hkv', by simpa [normalise, Vals.len] using h0⟩)]
    rw [List.map_map, show new.map ((fun kv => (⟨.add, kv.1, normalise kv.2⟩ : Mod AVal)) ∘ fun kv => (kv.1, RawVals.vals (.list kv.2))) =
      new.filterMap (fun kv => some ⟨.add, kv.1, .list kv.2⟩) by rw [List.filterMap_eq_map']; rfl]
    refine with_step hs env hE l hr dn new _ (fun kv md hmd => ?_) hn _ none (fun _ md hmd => ?_) (fun e he kv hkv md hmd hacc => ?_) (fun e he kv hkv hmd => ?_)
    · cases hmd; rfl
    · obtain ⟨kv, hkv, hmd⟩ := List.mem_filterMap.1 hmd
      cases hmd
      intro h0
      simp only [Vals.list.injEq] at h0
      exact hb ⟨kv, hkv, h0⟩
    · cases hmd
      obtain ⟨e1, e2, a1, a2⟩ := hacc
      have a3 : ∀ v ∈ kv.2.map AVal.bytes, (e (env.lower kv.1)).any (fun x => mo kv.1 x v) = false := by
        simp only [srvChange, toBytes, valsList] at a1
        split at a1
        · rename_i l0 hl0
          have := add_accepted _ _ _ _ hl0
          rw [a2] at this
          exact this
        · cases a1
      show e (env.lower kv.1) ++ kv.2.map AVal.bytes = _
      rw [withAdded, List.filter_eq_self.2 (fun v hv' => by rw [a3 v hv']; rfl)]
    · cases hmd

/-- deleting, knowing all values that are there -/
theorem delete_step {G : Str → AVal → Prop} (hs : Serves dir contents peer) (env : Api.Env V R) (hE : Entries env.lower mo norm dir at_) (typeOf : TypeOf AVal) (hD : Decides typeOf (onBytes mo) G)
    (l : Link Received.Decoded S) (hr : SessionP.Ready l.st) (dn : Str) (del : List (Str × Vals AVal)) (hn : (del.map (fun kv => env.lower kv.1)).Nodup) (ht : ∀ kv ∈ del, ∃ t, typeOf kv.1 = .ok t)
    (hv : ∀ kv ∈ del, ∀ vs, kv.2 = .list vs → ∀ v ∈ vs, G kv.1 v) (hi : env.opts.ignore = true → ∀ kv ∈ del, kv.2 ≠ .list []) (d : AttrsDict AVal) (hg : GoodAttrs env.lower G d)
    (hd : ∀ e, at_ (contents l.peer) (norm dn) = some e → ∀ kv ∈ del, ∀ b ∈ e (env.lower kv.1), ∃ v ∈ AttrsDict.getAttr env.lower d kv.1, v.bytes = b) :
    let x := Api.modifyWith codec (fun d => d.1.1) peer env l dn (some d) (deleteModlist env.lower typeOf d del)
    AttrsEffect env.lower norm at_ (contents l.peer) dn del (fun a vs cur => deleting (mo a) vs cur) x.2 (contents x.1.peer) ∧
    (x.2 ≠ .error .tagError → x.2 ≠ .error .typeError → SessionP.Ready x.1.st) := by
  have hn1 : (del.map Prod.fst).Nodup := by
    rw [show del.map (fun p => env.lower p.1) = (del.map Prod.fst).map env.lower by rw [List.map_map]; rfl] at hn
    exact List.Pairwise.of_map _ (fun a b hab hc => hab (by rw [hc])) hn
  have hmod := c06_delete_modlist env.lower typeOf (onBytes mo) G hD d hg del hn1 (fun a ha => by
    obtain ⟨kv, hkv, rfl⟩ := List.mem_map.1 ha
    exact ht kv hkv) hv
  dsimp only
  rw [hmod]
  have hknown : ∀ e, at_ (contents l.peer) (norm dn) = some e → ∀ kv ∈ del, ∀ v, knows env.lower (onBytes mo) d kv.1 v = false → (e (env.lower kv.1)).any (fun x => mo kv.1 x v.bytes) = false := by
    intro e he kv hkv v hk
    simp only [knows, List.any_eq_false] at hk ⊢
    intro b hb
    obtain ⟨x, hx, rfl⟩ := hd e he kv hkv b hb
    exact hk x hx
  refine with_step hs env hE l hr dn del _ (fun kv md hmd => ?_) hn _ (some d) (fun hig md hmd h0 => ?_) (fun e he kv hkv md hmd hacc => ?_) (fun e he kv hkv hmd => ?_)
  · obtain ⟨a, vs⟩ := kv
    dsimp only at hmd
    split at hmd
    · cases hmd
    · cases vs with
      | deleteAll => cases hmd; rfl
      | list l0 =>
        cases l0 with
        | nil => cases hmd; rfl
        | cons v l0 =>
          dsimp only at hmd
          split at hmd
          · cases hmd
          · rename_i hu
            cases hmd
            rfl
  · obtain ⟨kv, hkv, hmd⟩ := List.mem_filterMap.1 hmd
    obtain ⟨a, vs⟩ := kv
    dsimp only at hmd
    split at hmd
    · cases hmd
    · cases vs with
      | deleteAll => cases hmd; cases h0
      | list l0 =>
        cases l0 with
        | nil => cases hmd; exact hi hig _ hkv rfl
        | cons v l0 =>
          dsimp only at hmd
          split at hmd
          · cases hmd
          · rename_i hu
            cases hmd
            exact hu (by simpa using h0)
  · obtain ⟨a, vs⟩ := kv
    dsimp only at hmd
    split at hmd
    · cases hmd
    · cases vs with
      | deleteAll => cases hmd; rfl
      | list l0 =>
        cases l0 with
        | nil => cases hmd; rfl
        | cons v l0 =>
          dsimp only at hmd
          split at hmd
          · cases hmd
          · rename_i hu
            cases hmd
            obtain ⟨e1, e2, a1, a2⟩ := hacc
            have hne : ((v :: l0).filter (fun v => knows env.lower (onBytes mo) d a v)).map AVal.bytes ≠ [] := fun h => hu (List.map_eq_nil_iff.1 h)
            have a3 : ∀ b ∈ ((v :: l0).filter (fun v => knows env.lower (onBytes mo) d a v)).map AVal.bytes, (e (env.lower a)).any (fun x => mo a x b) = true := by
              obtain ⟨l1, hl1⟩ := change_delete e1 e2 a _ hne a1
              have := delete_accepted _ _ _ _ hl1
              rw [a2] at this
              exact this
            show (if ((v :: l0).filter (fun v => knows env.lower (onBytes mo) d a v)).map AVal.bytes = [] then [] else without (mo a) (e (env.lower a))
              (((v :: l0).filter (fun v => knows env.lower (onBytes mo) d a v)).map AVal.bytes)) = without (mo a) (e (env.lower a)) ((v :: l0).map AVal.bytes)
            rw [if_neg hne, ← without_known (mo a) (e (env.lower a)) ((v :: l0).map AVal.bytes) _ (fun _ h => h), ← filter_bytes (fun b => (e (env.lower a)).any (fun x => mo a x b))]
            congr 2
            apply List.filter_congr
            intro w hw
            cases hk : knows env.lower (onBytes mo) d a w with
            | true => exact (a3 w.bytes (List.mem_map.2 ⟨w, List.mem_filter.2 ⟨hw, hk⟩, rfl⟩)).symm
            | false => exact (hknown e he _ hkv w hk).symm
  · obtain ⟨a, vs⟩ := kv
    dsimp only at hmd
    split at hmd
    · rename_i h0
      have h1 : e (env.lower a) = [] := by
        cases h2 : e (env.lower a) with
        | nil => rfl
        | cons b bs =>
          obtain ⟨v, hv', _⟩ := hd e he _ hkv b (by rw [h2]; simp)
          rw [h0] at hv'
          cases hv'
      simp only [h1]
      unfold deleting
      split
      · rfl
      · rfl
      · exact without_nil _ _
    · cases vs with
      | deleteAll => cases hmd
      | list l0 =>
        cases l0 with
        | nil => cases hmd
        | cons v l0 =>
          dsimp only at hmd
          split at hmd
          · rename_i hu
            show without (mo a) (e (env.lower a)) ((v :: l0).map AVal.bytes) = _
            rw [← without_known (mo a) (e (env.lower a)) ((v :: l0).map AVal.bytes) _ (fun _ h => h)]
            rw [List.filter_eq_nil_iff.2 (fun b hb => ?_)]
            · rfl
            · obtain ⟨w, hw, rfl⟩ := List.mem_map.1 hb
              have hk : knows env.lower (onBytes mo) d a w = false := by
                have := List.filter_eq_nil_iff.1 hu w hw
                simpa using this
              rw [hknown e he _ hkv w hk]
              decide
          · cases hmd

/-- modifications made of the values as given -/
theorem plain_step (hs : Serves dir contents peer) (env : Api.Env V R) (hE : Entries env.lower mo norm dir at_) (l : Link Received.Decoded S) (hr : SessionP.Ready l.st) (dn : Str) (op : ModOp)
    (hop : op ≠ .add) (named : List (Str × Vals AVal)) (hn : (named.map (fun kv => env.lower kv.1)).Nodup) (hi : env.opts.ignore = true → ∀ kv ∈ named, kv.2 ≠ .list []) (current : Option (AttrsDict AVal)) :
    let x := Api.modifyWith codec (fun d => d.1.1) peer env l dn current (modlist op (named.map (fun kv => (kv.1, .vals kv.2))))
    AttrsEffect env.lower norm at_ (contents l.peer) dn named (fun a vs cur => if op = .replace then replacing vs else deleting (mo a) vs cur) x.2 (contents x.1.peer) ∧
    (x.2 ≠ .error .tagError → x.2 ≠ .error .typeError → SessionP.Ready x.1.st) := by
  dsimp only
  rw [(c07_modlist op _).2 (fun h => hop h.1)]
  rw [List.map_map, show named.map ((fun kv => (⟨op, kv.1, normalise kv.2⟩ : Mod AVal)) ∘ fun kv => (kv.1, RawVals.vals kv.2)) =
    named.filterMap (fun kv => some ⟨op, kv.1, kv.2⟩) by rw [List.filterMap_eq_map']; rfl]
  refine with_step hs env hE l hr dn named _ (fun kv md hmd => ?_) hn _ current (fun hig md hmd => ?_) (fun e he kv hkv md hmd hacc => ?_) (fun e he kv hkv hmd => ?_)
  · cases hmd; rfl
  · obtain ⟨kv, hkv, hmd⟩ := List.mem_filterMap.1 hmd
    cases hmd
    exact hi hig kv hkv
  · cases hmd
    obtain ⟨a, vs⟩ := kv
    match op, vs with
    | .add, _ => exact absurd rfl hop
    | .replace, .deleteAll | .replace, .list _ => rfl
    | .delete, .deleteAll | .delete, .list [] | .delete, .list (_ :: _) => rfl
  · cases hmd

end
end EntP

section
open WireP OverWire OverWireP Spec.OverWireS Spec.DirectoryS Spec.EntriesS EntP
variable {V R S D : Type} {dir : Directory D} {contents : S → D} {peer : Peer S} {norm : Str → Str} {mo : Str → Bytes → Bytes → Bool} {at_ : D → Str → Option (Spec.Entry Bytes)} {G : Str → AVal → Prop}
  (hs : Serves dir contents peer) (env : Api.Env V R) (hE : Entries env.lower mo norm dir at_) (typeOf : TypeOf AVal) (l : Link Received.Decoded S) (hr : SessionP.Ready l.st) (dn : Str)
include hs hE hr

/-- **C91 (`add_attrs`).** Against any server that serves such a directory, with any connection that is between two requests: the call raises and nothing has changed, or it returns and the entry has the
values it had and those given that were not there yet, and nothing else has changed. `current`, if given, must not show values for the attributes named that the entry does not have; if it is not given and
the connection is not strict, the call raises if there is no entry. -/
theorem c91_add_attrs (hD : Decides typeOf (onBytes mo) G) (strict : Bool) (new : List (Str × List AVal)) (hn : (new.map (fun kv => env.lower kv.1)).Nodup) (ht : ∀ kv ∈ new, ∃ t, typeOf kv.1 = .ok t)
    (hv : ∀ kv ∈ new, ∀ v ∈ kv.2, G kv.1 v) (current : Option (AttrsDict AVal)) (hg : ∀ e, at_ (contents l.peer) (norm dn) = some e → GoodEntry env.lower G (seen e))
    (hc : ∀ d, current = some d → GoodAttrs env.lower G d ∧ ∀ e, at_ (contents l.peer) (norm dn) = some e → ∀ kv ∈ new, ∀ v ∈ AttrsDict.getAttr env.lower d kv.1, v.bytes ∈ e (env.lower kv.1)) :
    let r := Api.addAttrs codec (fun d => d.1.1) peer env typeOf strict l dn new current
    AttrsEffect env.lower norm at_ (contents l.peer) dn new (fun a vs cur => withAdded (mo a) cur (vs.map AVal.bytes)) r.2 (contents r.1.peer) ∧
    (current = none → strict = false → at_ (contents l.peer) (norm dn) = none → ∃ e, r.2 = .error e) ∧
    (r.2 ≠ .error .tagError → r.2 ≠ .error .typeError → SessionP.Ready r.1.st) := by
  intro r
  simp only [r]
  cases current with
  | some d =>
    obtain ⟨c1, c2⟩ := hc d rfl
    obtain ⟨h1, h2⟩ := add_step hs env hE typeOf hD l hr dn new hn ht hv d c1 c2
    exact ⟨h1, nofun, h2⟩
  | none =>
    cases strict with
    | true =>
      obtain ⟨h1, h2⟩ := add_strict hs env hE l hr dn new hn
      exact ⟨h1, fun _ => nofun, h2⟩
    | false =>
      simp only [Api.addAttrs, Bool.false_eq_true, if_false]
      have h := current_step hs env hE l hr dn hg (new.map Prod.fst)
      revert h
      rcases Api.currentFor codec (fun d => d.1.1) peer env l dn (new.map Prod.fst) with ⟨l', e | d⟩
      · rintro ⟨h1, h2, _⟩
        exact ⟨h1, fun _ _ _ => ⟨e, rfl⟩, fun a b => h2 (fun h => a (by simp only [Except.error.injEq] at h; rw [h])) (fun h => b (by simp only [Except.error.injEq] at h; rw [h]))⟩
      · rintro ⟨h1, h2, h3⟩
        obtain ⟨e, k1, k2, k3⟩ := h3 d rfl
        obtain ⟨g1, g2⟩ := add_step hs env hE typeOf hD l' (h2 nofun nofun) dn new hn ht hv d k2 (fun e' he' kv hkv v hv' => by
          rw [h1, k1] at he'
          cases he'
          rw [k3 kv.1 (List.mem_map_of_mem hkv)] at hv'
          obtain ⟨b, hb, rfl⟩ := List.mem_map.1 hv'
          rw [bytes_shown]
          exact hb)
        rw [h1] at g1
        exact ⟨g1, (fun _ _ h0 => by rw [k1] at h0; cases h0), g2⟩

/-- **C91 (`delete_attrs`).** Likewise: the entry is without the values given, as far as it had them; without any if none are given. `current`, if given, must show all values that the entry has for the
attributes named. Empty lists must not be given to a connection that ignores them. -/
theorem c91_delete_attrs (hD : Decides typeOf (onBytes mo) G) (strict : Bool) (del : List (Str × Vals AVal)) (hn : (del.map (fun kv => env.lower kv.1)).Nodup) (ht : ∀ kv ∈ del, ∃ t, typeOf kv.1 = .ok t)
    (hv : ∀ kv ∈ del, ∀ vs, kv.2 = .list vs → ∀ v ∈ vs, G kv.1 v) (hi : env.opts.ignore = true → ∀ kv ∈ del, kv.2 ≠ .list []) (current : Option (AttrsDict AVal))
    (hg : ∀ e, at_ (contents l.peer) (norm dn) = some e → GoodEntry env.lower G (seen e))
    (hc : ∀ d, current = some d → GoodAttrs env.lower G d ∧ ∀ e, at_ (contents l.peer) (norm dn) = some e → ∀ kv ∈ del, ∀ b ∈ e (env.lower kv.1), ∃ v ∈ AttrsDict.getAttr env.lower d kv.1, v.bytes = b) :
    let r := Api.deleteAttrs codec (fun d => d.1.1) peer env typeOf strict l dn del current
    AttrsEffect env.lower norm at_ (contents l.peer) dn del (fun a vs cur => deleting (mo a) vs cur) r.2 (contents r.1.peer) ∧
    (current = none → strict = false → at_ (contents l.peer) (norm dn) = none → ∃ e, r.2 = .error e) ∧
    (r.2 ≠ .error .tagError → r.2 ≠ .error .typeError → SessionP.Ready r.1.st) := by
  intro r
  simp only [r]
  cases current with
  | some d =>
    obtain ⟨c1, c2⟩ := hc d rfl
    obtain ⟨h1, h2⟩ := delete_step hs env hE typeOf hD l hr dn del hn ht hv hi d c1 c2
    exact ⟨h1, nofun, h2⟩
  | none =>
    cases strict with
    | true =>
      obtain ⟨h1, h2⟩ := plain_step hs env hE l hr dn .delete nofun del hn hi none
      exact ⟨h1, fun _ => nofun, h2⟩
    | false =>
      simp only [Api.deleteAttrs, Bool.false_eq_true, if_false]
      have h := current_step hs env hE l hr dn hg (del.map Prod.fst)
      revert h
      rcases Api.currentFor codec (fun d => d.1.1) peer env l dn (del.map Prod.fst) with ⟨l', e | d⟩
      · rintro ⟨h1, h2, _⟩
        exact ⟨h1, fun _ _ _ => ⟨e, rfl⟩, fun a b => h2 (fun h => a (by simp only [Except.error.injEq] at h; rw [h])) (fun h => b (by simp only [Except.error.injEq] at h; rw [h]))⟩
      · rintro ⟨h1, h2, h3⟩
        obtain ⟨e, k1, k2, k3⟩ := h3 d rfl
        obtain ⟨g1, g2⟩ := delete_step hs env hE typeOf hD l' (h2 nofun nofun) dn del hn ht hv hi d k2 (fun e' he' kv hkv b hb => by
          rw [h1, k1] at he'
          cases he'
          rw [k3 kv.1 (List.mem_map_of_mem hkv)]
          exact ⟨shown b, List.mem_map.2 ⟨b, hb, rfl⟩, bytes_shown b⟩)
        rw [h1] at g1
        exact ⟨g1, (fun _ _ h0 => by rw [k1] at h0; cases h0), g2⟩

/-- **C91 (`replace_attrs`).** Likewise: the entry has the values given for the attributes named. -/
theorem c91_replace_attrs (strict : Bool) (new : List (Str × Vals AVal)) (hn : (new.map (fun kv => env.lower kv.1)).Nodup) (hi : env.opts.ignore = true → ∀ kv ∈ new, kv.2 ≠ .list [])
    (current : Option (AttrsDict AVal)) :
    let r := Api.replaceAttrs codec (fun d => d.1.1) peer env strict l dn new current
    AttrsEffect env.lower norm at_ (contents l.peer) dn new (fun _ vs _ => replacing vs) r.2 (contents r.1.peer) ∧
    (r.2 ≠ .error .tagError → r.2 ≠ .error .typeError → SessionP.Ready r.1.st) := by
  intro r
  simp only [r, Api.replaceAttrs]
  by_cases hq : (current.isNone && !env.modValidators.isEmpty && !strict) = true
  · simp only [if_pos hq]
    have h := current_step (G := fun _ _ => True) hs env hE l hr dn (fun _ _ _ _ _ => trivial) (new.map Prod.fst)
    revert h
    rcases Api.currentFor codec (fun d => d.1.1) peer env l dn (new.map Prod.fst) with ⟨l', e | d⟩
    · rintro ⟨h1, h2, _⟩
      exact ⟨h1, fun a b => h2 (fun h => a (by simp only [Except.error.injEq] at h; rw [h])) (fun h => b (by simp only [Except.error.injEq] at h; rw [h]))⟩
    · rintro ⟨h1, h2, h3⟩
      obtain ⟨g1, g2⟩ := plain_step hs env hE l' (h2 nofun nofun) dn .replace nofun new hn hi (some d)
      rw [h1] at g1
      exact ⟨g1, g2⟩
  · simp only [if_neg hq]
    exact plain_step hs env hE l hr dn .replace nofun new hn hi current
end
section
open WireP OverWire OverWireP Spec.OverWireS Spec.DirectoryS Spec.EntriesS EntP

/-- **C91 (there are such directories).** Whatever equality of values and normalization of DNs: there is a directory of entries by DN in which every modify request that RFC 4511 allows is possible and in which
reading a DN finds its entry (and by `c90_server_exists` there is a server that has it). -/
theorem c91_directory_exists (lower norm : Str → Str) (mo : Str → Bytes → Bytes → Bool) : ∃ dir : Directory (Str → Option (Spec.Entry Bytes)), Entries lower mo norm dir (fun d => d) ∧
    (∀ d dn cs e e', d (norm dn) = some e → srvModify lower mo e cs = .ok e' → ∃ d', dir.updated d (Spec.OverWireS.modifyOp dn cs) d') ∧
    (∀ d dn deref size time f attrs e, d (norm dn) = some e → ∃ got, dir.finds d (readOp dn deref size time f attrs) [(dn, got)] ∧ Faithful lower e attrs got) := by
  refine ⟨⟨fun d op d' => ∃ dn cs e e', op = Spec.OverWireS.modifyOp dn cs ∧ d (norm dn) = some e ∧ srvModify lower mo e cs = .ok e' ∧ d' = fun x => if x = norm dn then some e' else d x, fun _ _ _ _ => False,
    fun d op found => ∃ dn deref size time f attrs, op = readOp dn deref size time f attrs ∧ ((d (norm dn) = none ∧ found = []) ∨ ∃ e, d (norm dn) = some e ∧ found = [(dn, listing lower e attrs)])⟩, ⟨?_, ?_⟩, ?_, ?_⟩
  · rintro d dn cs d' ⟨dn', cs', e, e', h1, h2, h3, rfl⟩
    have hdn : dn = dn' := by
      simp only [Spec.OverWireS.modifyOp, Spec.Wire.Op.modifyRequest.injEq] at h1
      exact utf8_injective _ _ h1.1
    subst hdn
    have := modifyOp_inj _ _ _ h1
    subst this
    exact ⟨e, e', h2, h3, if_pos rfl, fun x hx => if_neg hx⟩
  · rintro d dn deref size time f attrs found ⟨dn', deref', size', time', f', attrs', h1, h2⟩ p hp
    simp only [readOp, Spec.Wire.Op.searchRequest.injEq] at h1
    have hdn := utf8_injective _ _ h1.1
    have ha := map_utf8_inj _ _ h1.2.2.2.2.2.2.2
    subst hdn ha
    rcases h2 with ⟨_, rfl⟩ | ⟨e, h2, rfl⟩
    · cases hp
    · simp only [List.mem_singleton] at hp
      subst hp
      exact ⟨e, h2, listing_faithful lower e attrs⟩
  · intro d dn cs e e' h1 h2
    exact ⟨_, dn, cs, e, e', rfl, h1, h2, rfl⟩
  · intro d dn deref size time f attrs e h
    exact ⟨_, ⟨dn, deref, size, time, f, attrs, rfl, .inr ⟨e, h, rfl⟩⟩, listing_faithful lower e attrs⟩

/-- **C91 (an object that is out of date).** Given an object that shows a value which the entry does not have, `add_attrs` returns without adding it, whatever the server. -/
theorem c91_stale_witness : ∃ (env : Api.Env Unit Unit) (d : AttrsDict AVal) (new : List (Str × List AVal)), ∀ (S : Type) (peer : Peer S) (l : Link Received.Decoded S) (dn : Str),
    Api.addAttrs codec (fun d => d.1.1) peer env (fun _ => .ok (.default : AttrType AVal)) false l dn new (some d) = (l, .ok .done) ∧ new = [(str "cn", [.text (str "b")])] :=
  ⟨DirP.sampleEnv, CIDict.update lc CIDict.empty [(str "cn", [.text (str "a"), .text (str "b")])], [(str "cn", [.text (str "b")])], fun _ _ _ _ => ⟨rfl, rfl⟩⟩

/-- **C91 (a reference).** If `get` gives a reference to another server instead of an object, then the calls that read the object first raise a `TypeError` and send nothing more, whatever the server. -/
theorem c91_reference {V R S : Type} (peer : Peer S) (env : Api.Env V R) (typeOf : TypeOf AVal) (l l' : Link Received.Decoded S) (dn : Str) (u : List Str) (c : PDict Str R) :
    (∀ new : List (Str × List AVal), Api.getOne codec (fun d => d.1.1) peer env l dn (some (new.map Prod.fst)) [] = (l', .ok (.ref u c)) →
      Api.addAttrs codec (fun d => d.1.1) peer env typeOf false l dn new none = (l', .error .typeError)) ∧
    (∀ del : List (Str × Vals AVal), Api.getOne codec (fun d => d.1.1) peer env l dn (some (del.map Prod.fst)) [] = (l', .ok (.ref u c)) →
      Api.deleteAttrs codec (fun d => d.1.1) peer env typeOf false l dn del none = (l', .error .typeError) ∧
      (env.modValidators ≠ [] → Api.replaceAttrs codec (fun d => d.1.1) peer env false l dn del none = (l', .error .typeError))) := by
  refine ⟨fun new h => ?_, fun del h => ⟨?_, fun hv => ?_⟩⟩
  · simp only [Api.addAttrs, Api.currentFor, h, Api.objectOf, Bool.false_eq_true, if_false]
  · simp only [Api.deleteAttrs, Api.currentFor, h, Api.objectOf, Bool.false_eq_true, if_false]
  · have : env.modValidators.isEmpty = false := by
      cases hm : env.modValidators with
      | nil => exact absurd hm hv
      | cons _ _ => rfl
    simp only [Api.replaceAttrs, Api.currentFor, h, Api.objectOf, this, Option.isNone_none, Bool.not_false, Bool.and_self, if_true]

/-- a server that answers every first request by a reference to `u` -/
def EntP.refPeer : Peer (List Bytes) := fun s bs => (s ++ [bs], [[48, 8, 2, 1, 1, 115, 3, 4, 1, 117], [48, 12, 2, 1, 1, 101, 7, 10, 1, 0, 4, 0, 4, 0]])

def EntP.refEnv : Api.Env Unit Unit := { DirP.sampleEnv with conn := { DirP.sampleEnv.conn with dfltFetchRefs := false } }

def EntP.isRef : Except Err (Search.Item Received.Entry Unit) → Bool
  | .ok (.ref [u] []) => decide (u = str "u")
  | _ => false

set_option maxRecDepth 100000 in
theorem EntP.ref_got : isRef (Api.getOne codec (fun d => d.1.1) refPeer refEnv ⟨Session.St.init, []⟩ (str "o") (some ([(str "CN", [AVal.text (str "a")])].map Prod.fst)) []).2 = true := by decide +kernel

example : (Api.addAttrs codec (fun d => d.1.1) EntP.refPeer EntP.refEnv (fun _ => .ok (.default : AttrType AVal)) false ⟨Session.St.init, []⟩ (str "o") [(str "CN", [.text (str "a")])] none).2 = .error .typeError := by
  have h := EntP.ref_got
  rcases hx : Api.getOne codec (fun d => d.1.1) EntP.refPeer EntP.refEnv ⟨Session.St.init, []⟩ (str "o") (some ([(str "CN", [AVal.text (str "a")])].map Prod.fst)) [] with ⟨l', r⟩
  rw [hx] at h
  unfold EntP.isRef at h
  split at h
  · rename_i u hr
    simp only at hr
    subst hr
    rw [(c91_reference EntP.refPeer EntP.refEnv _ _ l' (str "o") _ _).1 _ hx]
  · cases h

/-! A directory with one entry, and a server that has it: two values are given, one of them is there. -/
namespace EntP

def eqb : Str → Bytes → Bytes → Bool := fun _ a b => decide (a = b)

/-- the entry `o` with these values of `cn` -/
def ent (d : List Bytes) : Spec.Entry Bytes := fun x => if x = str "cn" then d else []

def atO : List Bytes → Str → Option (Spec.Entry Bytes) := fun d x => if x = str "o" then some (ent d) else none

def oDir : Directory (List Bytes) where
  updated d op d' := ∃ cs, op = Spec.OverWireS.modifyOp (str "o") cs ∧ srvModify lc eqb (ent d) cs = .ok (ent d')
  holds _ _ _ _ := False
  finds d op found := ∃ deref size time f attrs, op = readOp (str "o") deref size time f attrs ∧ found = [(str "o", listing lc (ent d) attrs)]

theorem o_entries : Entries lc eqb (fun x => x) oDir atO := by
  refine ⟨?_, ?_⟩
  · rintro d dn cs d' ⟨cs', h1, h3⟩
    have hdn : dn = str "o" := by
      simp only [Spec.OverWireS.modifyOp, Spec.Wire.Op.modifyRequest.injEq] at h1
      exact utf8_injective _ _ h1.1
    subst hdn
    have := modifyOp_inj _ _ _ h1
    subst this
    exact ⟨ent d, ent d', if_pos rfl, h3, if_pos rfl, fun x hx => by simp only [atO, if_neg hx]⟩
  · rintro d dn deref size time f attrs found ⟨deref', size', time', f', attrs', h1, rfl⟩ p hp
    simp only [readOp, Spec.Wire.Op.searchRequest.injEq] at h1
    have hdn := utf8_injective _ _ h1.1
    have ha := map_utf8_inj _ _ h1.2.2.2.2.2.2.2
    subst hdn ha
    simp only [List.mem_singleton] at hp
    subst hp
    exact ⟨ent d, if_pos rfl, listing_faithful lc (ent d) attrs⟩

def readBytes : Bytes := [48, 42, 2, 1, 1, 99, 37, 4, 1, 111, 10, 1, 0, 10, 1, 0, 2, 1, 2, 2, 1, 0, 1, 1, 0, 135, 11, 111, 98, 106, 101, 99, 116, 67, 108, 97, 115, 115, 48, 4, 4, 2, 67, 78]
def readMsg : Spec.Wire.Message := ⟨1, .searchRequest [111] 0 0 2 0 false (.present [111, 98, 106, 101, 99, 116, 67, 108, 97, 115, 115]) [[67, 78]], none⟩
def modBytes : Bytes := [48, 26, 2, 1, 2, 102, 21, 4, 1, 111, 48, 16, 48, 14, 10, 1, 0, 48, 9, 4, 2, 67, 78, 49, 3, 4, 1, 98]
def modMsg : Spec.Wire.Message := ⟨2, .modifyRequest [111] [(0, ⟨[67, 78], [[98]]⟩)], none⟩
def entryBytes : Bytes := [48, 21, 2, 1, 1, 100, 16, 4, 1, 111, 48, 11, 48, 9, 4, 2, 67, 78, 49, 3, 4, 1, 97]
def readOut (s : List Bytes) : List Bytes × List Bytes :=
  if s = [[97]] then (s, [entryBytes ++ [48], [12, 2, 1, 1, 101, 7, 10, 1, 0, 4, 0, 4, 0]]) else (s, [[48, 12, 2, 1, 1, 101, 7, 10, 1, 53, 4, 0, 4, 0]])
def modOut (s : List Bytes) : List Bytes × List Bytes :=
  if s = [[97]] then ([[97], [98]], [[48, 12, 2, 1, 2, 103, 7, 10, 1, 0, 4, 0, 4, 0]]) else (s, [[48, 12, 2, 1, 2, 103, 7, 10, 1, 53, 4, 0, 4, 0]])

noncomputable def oPeer : Peer (List Bytes) := fun s bs => if bs = readBytes then readOut s else (fun s bs => if bs = modBytes then modOut s else Classical.choose (c90_server_exists oDir) s bs) s bs

theorem o_serves : Serves oDir (fun d => d) oPeer := by
  have h0 := (Classical.choose_spec (c90_server_exists oDir)).1
  have ha := WireR.has_enc modMsg modBytes (by decide +kernel)
  have hg := WireR.has_enc readMsg readBytes (by decide +kernel)
  refine DirP.override (DirP.override h0 modMsg modBytes ha.1 ha.2 modOut ?_ nofun (fun _ h => h.elim)) readMsg readBytes hg.1 hg.2 readOut nofun nofun ?_
  · intro s resp hresp
    cases hresp
    by_cases hs : s = [[97]]
    · subst hs
      have hr := WireR.has_enc ⟨2, .modifyResponse (said 0), none⟩ [48, 12, 2, 1, 2, 103, 7, 10, 1, 0, 4, 0, 4, 0] (by decide +kernel)
      refine ⟨said 0, ⟨_, .cons hr .nil, by decide, by decide⟩, .inl ⟨rfl, [⟨.add, str "CN", [[98]]⟩], rfl, ?_⟩⟩
      have h1 : lc (str "CN") = str "cn" := by decide
      simp only [srvModify, srvChange, h1]
      rw [show ent [[97]] (str "cn") = [[97]] from rfl, show srvAdd (eqb (str "CN")) [[97]] [[98]] = .ok [[97], [98]] by decide]
      simp only [Except.ok.injEq]
      funext x
      simp only [Entry.put, h1, ent, modOut, if_true]
      by_cases hx : x = str "cn"
      · simp [hx]
      · simp [hx]
    · simp only [modOut, if_neg hs]
      have hr := WireR.has_enc ⟨2, .modifyResponse (said 53), none⟩ [48, 12, 2, 1, 2, 103, 7, 10, 1, 53, 4, 0, 4, 0] (by decide +kernel)
      exact ⟨said 53, ⟨_, .cons hr .nil, by decide, by decide⟩, .inr ⟨by decide, trivial⟩⟩
  · intro s _
    by_cases hs : s = [[97]]
    · subst hs
      have h1 := WireR.has_enc ⟨1, Spec.DirectoryS.entryOp (str "o", [(str "CN", [[97]])]), none⟩ entryBytes (by decide +kernel)
      have h2 := WireR.has_enc ⟨1, .searchResDone (said 0), none⟩ [48, 12, 2, 1, 1, 101, 7, 10, 1, 0, 4, 0, 4, 0] (by decide +kernel)
      exact ⟨rfl, [(str "o", [(str "CN", [[97]])])], said 0, by decide, rfl, by decide, ⟨_, .cons h1 (.cons h2 .nil), by decide, by decide⟩,
        fun _ => ⟨0, 2, 0, _, [str "CN"], rfl, by decide⟩, fun h => absurd h (by decide)⟩
    · simp only [readOut, if_neg hs]
      have h2 := WireR.has_enc ⟨1, .searchResDone (said 53), none⟩ [48, 12, 2, 1, 1, 101, 7, 10, 1, 53, 4, 0, 4, 0] (by decide +kernel)
      exact ⟨trivial, [], said 53, by decide, rfl, nofun, ⟨_, .cons h2 .nil, by decide, by decide⟩, fun h => absurd h (by decide), fun h => absurd h (by decide)⟩

noncomputable def addRun := Api.addAttrs codec (fun d => d.1.1) oPeer DirP.sampleEnv (fun _ => .ok (.default : AttrType AVal)) false ⟨Session.St.init, [[97]]⟩ (str "o") [(str "CN", [.text (str "a"), .text (str "b")])] none

def isDone : Except Err (Api.Ret Unit) → Bool
  | .ok .done => true
  | _ => false

theorem isDone_eq (r : Except Err (Api.Ret Unit)) (h : isDone r = true) : r = .ok .done := by
  unfold isDone at h
  split at h
  · rfl
  · cases h

set_option maxRecDepth 100000 in
theorem add_done : isDone addRun.2 = true := by decide +kernel

example : addRun.2 = .ok .done ∧ ∃ e', atO addRun.1.peer (str "o") = some e' ∧ e' (str "cn") = [[97], [98]] := by
  obtain ⟨h, _, _⟩ := c91_add_attrs (G := fun _ v => Spec.Wire.Shows v.bytes v) o_serves DirP.sampleEnv o_entries (fun _ => .ok (.default : AttrType AVal)) ⟨Session.St.init, [[97]]⟩ SessionP.ready_init (str "o")
    OverWireP.octets_decide false [(str "CN", [.text (str "a"), .text (str "b")])] (by decide) (fun _ _ => ⟨_, rfl⟩) (by
      intro kv hkv v hv
      simp only [List.mem_singleton] at hkv
      subst hkv
      simp only [List.mem_cons, List.not_mem_nil, or_false] at hv
      rcases hv with rfl | rfl <;> rfl) none (by
      intro e he a x hx
      have he : some (ent [[97]]) = some e := he
      cases he
      obtain ⟨b, _, rfl⟩ := List.mem_map.1 hx
      have := OverWireP.shows_map [b]
      rw [bytes_shown]
      cases this with
      | cons h _ => exact h) nofun
  have hd := isDone_eq _ add_done
  refine ⟨hd, ?_⟩
  have h' : AttrsEffect (R := Unit) lc (fun x => x) atO [[97]] (str "o") [(str "CN", [AVal.text (str "a"), AVal.text (str "b")])] (fun a vs cur => withAdded (eqb a) cur (vs.map AVal.bytes)) addRun.2 addRun.1.peer := h
  rw [hd] at h'
  obtain ⟨_, _, e', h1, h2, _⟩ := h'
  refine ⟨e', h1, ?_⟩
  have := h2 _ (List.mem_singleton.2 rfl)
  rw [show str "cn" = lc (str "CN") by decide, this]
  decide

end EntP

end
end Laurelin.Props
