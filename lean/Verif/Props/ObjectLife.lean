import Verif.Props.Patterns
import Verif.Props.Dn
import Verif.Spec.ObjectLife
/-!
# C100 An object on a connection, from when it is made to when it is deleted
-/
set_option linter.unusedSectionVars false
namespace Laurelin.Props
open Laurelin Codec Asn1 Rfc4511 Spec
namespace ObjP
open Laurelin.Wire WireP WireR OverWire OverWireP EntP PatP
open Laurelin.Spec.OverWireS (Conforms Faithful Becomes withAdded without readOp)
open Laurelin.Spec.DirectoryS (Directory Serves SearchFor Shown Effect)
open Laurelin.Spec.EntriesS (Entries deleting replacing)
open Laurelin.Spec.PatternsS (Creates Created ShowsValues)
open Laurelin.Spec.ObjectS
section
variable {V R S D : Type} {dir : Directory D} {contents : S → D} {peer : Peer S} {lower norm : Str → Str} {mo : Str → Bytes → Bytes → Bool} {at_ : D → Str → Option (Spec.Entry Bytes)}
  {under : Str → Str → Prop} {system : Str → Prop} {typeOf : TypeOf AVal} {G : Str → AVal → Prop}

/-! ## The calls that change attributes -/

theorem deleteAttrs_keeps {Q : S → Prop} (env : OverWire.Env V R) (typeOf : TypeOf AVal) (l : Link Received.Decoded S) (d : AttrsDict AVal) (del : List (Str × Vals AVal)) (hk : Keeps env.obj.dn Q peer) (h : Q l.peer) :
    Q (OverWire.deleteAttrs codec (fun d => d.1.1) peer env lower typeOf l d del).link.peer := by
  simp only [OverWire.deleteAttrs]
  have hq := prepare_keeps (lower := lower) env l d (del.map Prod.fst) hk h
  revert hq
  rcases OverWire.prepare codec (fun d => d.1.1) peer env lower l d (del.map Prod.fst) with ⟨l', e | d'⟩
  · exact fun hq => hq
  · intro hq
    simp only []
    cases deleteModlist lower typeOf d' del with
    | error e => exact hq
    | ok mods => exact modifyObj_keeps env typeOf l' d' mods hk hq

theorem refreshObj_keeps {Q : S → Prop} (env : OverWire.Env V R) (l : Link Received.Decoded S) (d : AttrsDict AVal) (attrs : List Str) (hk : Keeps env.obj.dn Q peer) (h : Q l.peer) :
    Q (refreshObj codec (fun d => d.1.1) peer env lower l d attrs).link.peer := by
  simp only [refreshObj, OverWire.refresh]
  have hq := fetch_keeps env l attrs hk h
  revert hq
  rcases fetch codec (fun d => d.1.1) peer env l attrs with ⟨l', e | got⟩
  · exact fun hq => hq
  · intro hq
    simp only []
    cases CIDict.updateCI lower d (CIDict.update lower CIDict.empty got) <;> exact hq

theorem callOver_keeps {Q : S → Prop} (env : OverWire.Env V R) (w : World S) (c : ObjCall AVal) (hk : Keeps env.obj.dn Q peer) (h : Q w.link.peer) : Q (callOver lower typeOf peer env w c).1.link.peer := by
  cases c with
  | modify mods => exact modifyObj_keeps env typeOf _ _ mods hk h
  | addAttrs new => exact addAttrs_keeps env typeOf _ _ new hk h
  | replaceAttrs new => exact replaceAttrs_keeps env typeOf _ _ new hk h
  | deleteAttrs del => exact deleteAttrs_keeps env typeOf _ _ del hk h
  | refresh attrs => exact refreshObj_keeps env _ _ attrs hk h

/-- one of these calls, given what it does to the entry -/
theorem over_step (hs : Serves dir contents peer) (hE : Entries lower mo norm dir at_) (hD : Decides typeOf (onBytes mo) G) (hf : FoldCompat lower (onBytes mo) G) (hG : ∀ a v, G a v → Spec.Wire.Shows v.bytes v)
    (env : OverWire.Env V R) (l : Link Received.Decoded S) (hr : SessionP.Ready l.st) (d : AttrsDict AVal) (e : Spec.Entry Bytes) (he : at_ (contents l.peer) (norm env.obj.dn) = some e)
    (hv : View lower G (⟨d, seen e⟩ : Props.Session AVal)) (c : ObjCall AVal) (hc : CleanCall lower typeOf (onBytes mo) G ⟨d, seen e⟩ env.obj c) (P : Spec.Entry Bytes → Spec.Entry Bytes → AttrsDict AVal → Prop)
    (heff : ∀ (w : World S) (entry : S → Spec.Entry Bytes), Conforms lower mo env.obj.dn entry peer → Good lower entry G w → CleanCall lower typeOf (onBytes mo) G (w.session entry) env.obj c →
      let r := callOver lower typeOf peer env w c
      (r.2 = .ok () → P (entry w.link.peer) (entry r.1.link.peer) r.1.obj) ∧ (∀ x, r.2 = .error x → entry r.1.link.peer = entry w.link.peer)) :
    let r := callOver lower typeOf peer env ⟨d, l⟩ c
    SessionP.Ready r.1.link.st ∧ ∃ e', at_ (contents r.1.link.peer) (norm env.obj.dn) = some e' ∧ View lower G (⟨r.1.obj, seen e'⟩ : Props.Session AVal) ∧
      (∀ x, x ≠ norm env.obj.dn → at_ (contents r.1.link.peer) x = at_ (contents l.peer) x) ∧ (r.2 = .ok () → P e e' r.1.obj) ∧ (∀ x, r.2 = .error x → e' = e) := by
  intro r
  have hentry : entryOf contents at_ (norm env.obj.dn) l.peer = e := by
    simp only [entryOf, he, Option.getD_some]
  have hconf := conforms (lower := lower) (mo := mo) hs hE env.obj.dn
  have hw : Good lower (entryOf contents at_ (norm env.obj.dn)) G (⟨d, l⟩ : World S) := ⟨hr, by
    show View lower G ⟨d, seen (entryOf contents at_ (norm env.obj.dn) l.peer)⟩
    rw [hentry]; exact hv⟩
  have hc' : CleanCall lower typeOf (onBytes mo) G ((⟨d, l⟩ : World S).session (entryOf contents at_ (norm env.obj.dn))) env.obj c := by
    show CleanCall lower typeOf (onBytes mo) G ⟨d, seen (entryOf contents at_ (norm env.obj.dn) l.peer)⟩ env.obj c
    rw [hentry]; exact hc
  have hgood := call_over hD hf hG env hconf ⟨d, l⟩ hw c hc'
  obtain ⟨h1, h2⟩ := heff ⟨d, l⟩ _ hconf hw hc'
  have hk := callOver_keeps (lower := lower) (typeOf := typeOf) env ⟨d, l⟩ c (keeps hs hE env.obj.dn (contents l.peer)) ⟨fun _ _ => rfl, by show (at_ (contents l.peer) _).isSome = true; rw [he]; rfl⟩
  obtain ⟨e', he'⟩ := Option.isSome_iff_exists.1 hk.2
  have hent : entryOf contents at_ (norm env.obj.dn) r.1.link.peer = e' := by
    simp only [entryOf]
    rw [show at_ (contents r.1.link.peer) (norm env.obj.dn) = some e' from he']
    rfl
  refine ⟨hgood.ready, e', he', ?_, hk.1, fun hok => ?_, fun x hx => ?_⟩
  · have := hgood.view
    rw [show (callOver lower typeOf peer env ⟨d, l⟩ c).1.session (entryOf contents at_ (norm env.obj.dn)) = ⟨r.1.obj, seen (entryOf contents at_ (norm env.obj.dn) r.1.link.peer)⟩ from rfl, hent] at this
    exact this
  · have := h1 hok
    rw [show entryOf contents at_ (norm env.obj.dn) (⟨d, l⟩ : World S).link.peer = e from hentry, hent] at this
    exact this
  · have := h2 x hx
    rw [show entryOf contents at_ (norm env.obj.dn) (⟨d, l⟩ : World S).link.peer = e from hentry, hent] at this
    exact this

/-- `refresh` shows what it has asked for -/
theorem refresh_eff (env : OverWire.Env V R) (attrs : List Str) (w : World S) (entry : S → Spec.Entry Bytes) (hconf : Conforms lower mo env.obj.dn entry peer) (hw : Good lower entry G w) :
    let r := callOver lower typeOf peer env w (.refresh attrs)
    (r.2 = .ok () → entry r.1.link.peer = entry w.link.peer ∧ ∀ a ∈ attrs, ShowsValues lower (entry w.link.peer) r.1.obj a) ∧ (∀ x, r.2 = .error x → entry r.1.link.peer = entry w.link.peer) := by
  intro r
  obtain ⟨h1, h2, h3⟩ := refresh_over env hconf w hw attrs
  simp only [r, callOver, OverWire.refreshObj]
  revert h1 h2 h3
  rcases OverWire.refresh WireP.codec (fun d => d.1.1) peer env lower w.link w.obj attrs with ⟨l', e | d'⟩
  · intro h1 h2 _
    exact ⟨nofun, fun _ _ => h2⟩
  · intro h1 h2 h3
    obtain ⟨got, hg, rfl⟩ := h3 d' rfl
    refine ⟨fun _ => ⟨h2, fun a ha => ?_⟩, nofun⟩
    have hstep := (c10_refresh_step lower (w.session entry) hw.view attrs got hg).2
    have : Agrees lower ⟨CIDict.update lower w.obj got, seen (entry w.link.peer)⟩ a := by
      by_cases h0 : AttrsDict.getAttr lower w.obj a = []
      · exact hstep.2 a ha h0
      · exact hstep.1 a (hw.view.view a h0)
    exact shows_agrees _ _ _ this

/-! ## Other calls -/

/-- after these calls the connection is ready -/
theorem call_ready (env : Api.Env V R) (hs : Serves dir contents peer) (l : Link Received.Decoded S) (hr : SessionP.Ready l.st) :
    (∀ dn attrs, SessionP.Ready (Api.call codec (fun d => d.1.1) peer env l (.add dn attrs)).1.st) ∧ (∀ dn, SessionP.Ready (Api.call codec (fun d => d.1.1) peer env l (.delete dn)).1.st) ∧
    (∀ dn rdn clean parent, SessionP.Ready (Api.call codec (fun d => d.1.1) peer env l (.modDn dn rdn clean parent)).1.st) ∧
    (∀ dn attr value, SessionP.Ready (Api.call codec (fun d => d.1.1) peer env l (.compare dn attr value)).1.st) := by
  refine ⟨fun dn attrs => ?_, fun dn => ?_, fun dn rdn clean parent => (DirP.modDn_step env hs l hr dn rdn clean parent).1, fun dn attr value => ?_⟩
  · simp only [Api.call, ldapAdd]
    by_cases hu : env.conn.unbound = true
    · simp only [if_pos hu, List.foldl_nil]
      exact hr
    · simp only [if_neg hu]
      cases hc : env.ctrlsOk with
      | error e => exact hr
      | ok _ =>
        simp only []
        cases hv : runValidation env.addValidators (dn, CIDict.update env.lower CIDict.empty attrs) with
        | error e => exact hr
        | ok _ =>
          simp only []
          obtain ⟨g1, g2⟩ := DirP.update_step env hs l hr (.add dn attrs) trivial _ _ rfl rfl (fun r h => ⟨r, rfl, h, rfl⟩) (fun r h => ⟨r, rfl, h⟩)
          rcases g2 with ⟨k1, k2⟩ | ⟨⟨e, k1⟩, k2⟩ <;> rw [k1] <;> exact g1
  · simp only [Api.call]
    by_cases hu : env.conn.unbound = true
    · simp only [if_pos hu]
      exact hr
    · simp only [if_neg hu]
      cases hc : env.ctrlsOk with
      | error e => exact hr
      | ok _ => exact (DirP.update_step env hs l hr (.delete dn) trivial _ _ rfl rfl (fun r h => ⟨r, rfl, h, rfl⟩) (fun r h => ⟨r, rfl, h⟩)).1
  · simp only [Api.call]
    by_cases hu : env.conn.unbound = true
    · simp only [if_pos hu]
      exact hr
    · simp only [if_neg hu]
      cases hc : env.ctrlsOk with
      | error e => exact hr
      | ok _ => exact (DirP.compare_step env hs l hr dn attr value).1

theorem add_object (env : Api.Env V R) (l : Link Received.Decoded S) (dn : Str) (attrs : List (Str × List AVal)) (dn' : Str) (obj : AttrsDict AVal)
    (h : (Api.call codec (fun d => d.1.1) peer env l (.add dn attrs)).2 = .ok (.object dn' obj)) : dn' = dn ∧ obj = CIDict.update env.lower CIDict.empty attrs := by
  simp only [Api.call, ldapAdd] at h
  split at h
  · cases h
  · split at h
    · cases h
    · split at h
      · cases h
      · split at h
        · cases h
        · simp only [Except.map, Except.ok.injEq, Api.Ret.object.injEq] at h
          exact ⟨h.1.symm, h.2.symm⟩

/-! ## Names -/

theorem child_name (o : Api.Obj) (dn : Str) (h : o.dn = some dn) (x : Str) : (∃ e, o.names.rdn x = .error e) ∨ ∃ child, o.names.rdn x = .ok child ∧ Child o dn x child := by
  have h' : o.names.dn = some dn := h
  obtain ⟨h1, h2, h3⟩ := c45_rdn o.names dn x h'
  by_cases hx : '=' ∈ x
  · exact .inr ⟨_, h1 hx, .full hx⟩
  · cases ha : o.rdnAttr with
    | none => exact .inl ⟨_, h3 hx ha⟩
    | some a => exact .inr ⟨_, h2 hx a ha, .value a hx ha⟩

theorem rdn_name (o : Api.Obj) (x : Str) : (∃ e, o.names.fullRdn x = .error e) ∨ ∃ full, o.names.fullRdn x = .ok full ∧ Rdn o x full := by
  by_cases hx : '=' ∈ x
  · exact .inr ⟨x, by simp [LObj.fullRdn, hx], .full hx⟩
  · cases ha : o.rdnAttr with
    | none => exact .inl ⟨_, by simp only [LObj.fullRdn, hx, Api.Obj.names, ha]; rfl⟩
    | some a => exact .inr ⟨a ++ str "=" ++ x, by simp only [LObj.fullRdn, hx, Api.Obj.names, ha]; rfl, .value a hx ha⟩

theorem plain_ava {a v : Str} (h : PlainRdn a v) : splitFirst '=' (avaRdn a v) = some (a, v) := by
  rw [splitFirst_some]
  exact ⟨h.name.1, by rw [avaRdn, h.value.1]⟩

theorem plain_dn {a v : Str} (h : PlainRdn a v) (parent : Str) : splitFirst ',' (below (avaRdn a v) parent) = some (avaRdn a v, parent) := by
  rw [splitFirst_some]
  refine ⟨?_, by simp [below]⟩
  rw [avaRdn, h.value.1]
  simp only [List.mem_append, List.mem_cons, not_or]
  exact ⟨h.name.2, by decide, h.value.2⟩

/-! ## A new name -/

theorem srvRename_seen (e : Spec.Entry Bytes) (a : Str) (v : AVal) (a' : Str) (v' : AVal) (hv' : Spec.Wire.Shows v'.bytes v') (clean : Bool) :
    srvRename lower (onBytes mo) (seen e) a v a' v' clean = seen (srvRename lower mo e a v.bytes a' v'.bytes clean) := by
  have h1 : (if clean then Entry.put lower (seen e) a (dropFirst (fun x => onBytes mo a x v) (seen e (lower a))) else seen e) =
      seen (if clean then Entry.put lower e a (dropFirst (fun x => mo a x v.bytes) (e (lower a))) else e) := by
    cases clean with
    | false => rfl
    | true =>
      simp only [if_true]
      rw [← put_seen]
      congr 1
      exact dropFirst_seen (mo a) v (e (lower a))
  simp only [srvRename]
  rw [h1]
  generalize (if clean then Entry.put lower e a (dropFirst (fun x => mo a x v.bytes) (e (lower a))) else e) = e1
  have h2 : (seen e1 (lower a')).any (fun x => onBytes mo a' x v') = (e1 (lower a')).any (fun x => mo a' x v'.bytes) := any_seen (mo a') (e1 (lower a')) v'
  rw [h2]
  cases (e1 (lower a')).any (fun x => mo a' x v'.bytes) with
  | true => rfl
  | false =>
    simp only [Bool.false_eq_true, if_false]
    rw [← put_seen]
    congr 1
    simp only [seen, List.map_append, List.map_cons, List.map_nil, shown_bytes v' hv']

theorem pairwise_shown (l : List Bytes) (l' : List AVal) (h : Pairwise2 Spec.Wire.Shows l l') : l' = l.map shown := by
  induction h with
  | nil => rfl
  | @cons b v l l' h _ ih =>
    rw [ih]
    simp only [List.map_cons, List.cons.injEq, and_true]
    have hp := shows_map [b]
    cases hp with
    | cons hp _ => exact shows_unique b v _ h hp

theorem agrees_of (e : Spec.Entry Bytes) (d : AttrsDict AVal) (a : Str) (h : ShowsValues lower e d a) : AttrsDict.getAttr lower d a = seen e (lower a) := pairwise_shown _ _ h

/-! ## What is maintained -/

/-- the object shows its entry, or is deleted -/
def Alive (lower norm : Str → Str) (at_ : D → Str → Option (Spec.Entry Bytes)) (G : Str → AVal → Prop) (d : D) (o : Api.Obj) : Prop :=
  match o.dn with
  | none => ∀ a, AttrsDict.getAttr lower o.attrs a = []
  | some dn => ∃ e, at_ d (norm dn) = some e ∧ View lower G (⟨o.attrs, seen e⟩ : Props.Session AVal)

theorem alive_mirrors {d : D} {o : Api.Obj} (h : Alive lower norm at_ G d o) : Mirrors lower norm at_ d o := by
  unfold Mirrors
  unfold Alive at h
  cases hd : o.dn with
  | none => rw [hd] at h; exact h
  | some dn =>
    rw [hd] at h
    obtain ⟨e, h1, h2⟩ := h
    exact ⟨e, h1, fun a ha => shows_agrees e o.attrs a (h2.view a ha)⟩

theorem alive_same {d d' : D} {o : Api.Obj} (h : Alive lower norm at_ G d o) (hd : ∀ dn, o.dn = some dn → at_ d' (norm dn) = at_ d (norm dn)) : Alive lower norm at_ G d' o := by
  unfold Alive at *
  cases hdn : o.dn with
  | none => rw [hdn] at h; exact h
  | some dn =>
    rw [hdn] at h
    dsimp only at h ⊢
    rw [hd dn hdn]
    exact h

/-- the objects among the results -/
def given : Except Err Api.Returned → List Api.Obj
  | .ok (.objs l) => l.filterMap id
  | _ => []

/-- **When is a call careful.** For an object of the entry `e`: changes of attributes are clean calls (C10, C88) and name no attribute twice; a change of name is from and to an RDN of one attribute whose value
needs no escaping, and the object shows the attribute of the new one as the entry has it; a new child's attributes are named once each and have values that fit; no child that is to be deleted is the object itself. -/
def Careful (lower norm : Str → Str) (typeOf : TypeOf AVal) (mo : Str → Bytes → Bytes → Bool) (G : Str → AVal → Prop) (s : Api.ObjStep V R) (o : Api.Obj) (dn : Str) (e : Spec.Entry Bytes) : Prop :=
  match s.method with
  | .modify mods => CleanCall lower typeOf (onBytes mo) G ⟨o.attrs, seen e⟩ (s.env.forObj s.strict dn).obj (.modify mods)
  | .addAttrs new => (new.map (fun kv => lower kv.1)).Nodup ∧ CleanCall lower typeOf (onBytes mo) G ⟨o.attrs, seen e⟩ (s.env.forObj s.strict dn).obj (.addAttrs new)
  | .replaceAttrs new => (new.map (fun kv => lower kv.1)).Nodup ∧ CleanCall lower typeOf (onBytes mo) G ⟨o.attrs, seen e⟩ (s.env.forObj s.strict dn).obj (.replaceAttrs new)
  | .deleteAttrs del => (del.map (fun kv => lower kv.1)).Nodup ∧ CleanCall lower typeOf (onBytes mo) G ⟨o.attrs, seen e⟩ (s.env.forObj s.strict dn).obj (.deleteAttrs del)
  | .modDn newRdn _ _ => ∃ a v parent a' v', PlainRdn a v ∧ PlainRdn a' v' ∧ dn = below (avaRdn a v) parent ∧ newRdn = avaRdn a' v' ∧ G a (.text v) ∧ G a' (.text v') ∧ ShowsValues lower e o.attrs a'
  | .move newDn _ => ∃ a v parent a' v' sup, PlainRdn a v ∧ PlainRdn a' v' ∧ dn = below (avaRdn a v) parent ∧ newDn = below (avaRdn a' v') sup ∧ G a (.text v) ∧ G a' (.text v') ∧ ShowsValues lower e o.attrs a'
  | .addChild _ attrs => (attrs.map (fun kv => lower kv.1)).Nodup ∧ ∀ kv ∈ attrs, ∀ v ∈ kv.2, G kv.1 v
  | .deleteChild rdn => ∀ child, Child o dn rdn child → norm child ≠ norm dn
  | _ => True

/-- the parts of a directory and of the schema -/
structure Setting (dir : Directory D) (contents : S → D) (peer : Peer S) (lower norm : Str → Str) (mo : Str → Bytes → Bytes → Bool) (under : Str → Str → Prop) (system : Str → Prop)
    (at_ : D → Str → Option (Spec.Entry Bytes)) (typeOf : TypeOf AVal) (G : Str → AVal → Prop) : Prop where
  serves : Serves dir contents peer
  entries : Entries lower mo norm dir at_
  creates : Creates lower norm system dir at_
  tree : Tree lower mo norm under dir at_
  decides : Decides typeOf (onBytes mo) G
  fold : FoldCompat lower (onBytes mo) G
  shows : ∀ a v, G a v → Spec.Wire.Shows v.bytes v
  good : ∀ d x e, at_ d x = some e → GoodEntry lower G (seen e)

theorem found_view (hgood : ∀ d x e, at_ d x = some e → GoodEntry lower G (seen e)) (d : D) (o : Api.Obj) (p : Spec.DirectoryS.Found) (attrs : List Str) (e : Spec.Entry Bytes) (he : at_ d (norm p.1) = some e)
    (hf : Faithful lower e attrs p.2) (got : PDict Str (List AVal))
    (hg : Pairwise2 (fun (p : Str × List Bytes) (q : Str × List AVal) => q.1 = p.1 ∧ Pairwise2 Spec.Wire.Shows p.2 q.2) p.2 got) :
    Alive lower norm at_ G d ⟨some p.1, CIDict.update lower CIDict.empty got, o.scope, o.rdnAttr⟩ := by
  obtain ⟨v0, _⟩ := view_empty (lower := lower) (seen e) (hgood d _ e he)
  exact ⟨e, he, (c10_refresh_step lower ⟨CIDict.empty, seen e⟩ v0 attrs got (fetched e _ p.2 got hf hg)).1⟩

/-- search results as objects -/
theorem found_objs (hgood : ∀ d x e, at_ d x = some e → GoodEntry lower G (seen e)) (d : D) (o : Api.Obj) (attrs : List Str) (found : List Spec.DirectoryS.Found) (items : List (Search.Item Received.Entry R))
    (hf : ∀ p ∈ found, ∃ e, at_ d (norm p.1) = some e ∧ Faithful lower e attrs p.2) (hshow : Shown found items) :
    Pairwise2 (fun (p : Spec.DirectoryS.Found) x => ∃ n : Api.Obj, x = some n ∧ n.dn = some p.1 ∧ n.scope = o.scope ∧ n.rdnAttr = o.rdnAttr ∧ Mirrors lower norm at_ d n) found (items.map (o.made lower)) ∧
    ∀ n ∈ (items.map (o.made lower)).filterMap id, Alive lower norm at_ G d n := by
  unfold Shown at hshow
  induction hshow with
  | nil => exact ⟨.nil, nofun⟩
  | @cons p i found items h _ ih =>
    obtain ⟨k1, k2⟩ := ih (fun q hq => hf q (by simp [hq]))
    obtain ⟨got, rfl, hg⟩ := h
    obtain ⟨e, he, hfe⟩ := hf p (by simp)
    have hal := found_view hgood d o p attrs e he hfe got hg
    refine ⟨.cons ⟨_, rfl, rfl, rfl, rfl, alive_mirrors hal⟩ k1, fun n hn => ?_⟩
    simp only [List.map_cons, Api.Obj.made, List.filterMap_cons, id, List.mem_cons] at hn
    rcases hn with rfl | hn
    · exact hal
    · exact k2 n hn

theorem search_objs (hT : Tree lower mo norm under dir at_) (hgood : ∀ d x e, at_ d x = some e → GoodEntry lower G (seen e)) (conn : SearchConn V R) (d : D) (o : Api.Obj) (a : SearchArgs V) (ha : a.attrsOnly = false)
    (items : List (Search.Item Received.Entry R)) (h : ∃ op found, SearchFor conn a op ∧ dir.finds d op found ∧ Shown found items) :
    FoundAs lower norm dir at_ conn d o a (items.map (o.made lower)) ∧ ∀ n ∈ (items.map (o.made lower)).filterMap id, Alive lower norm at_ G d n := by
  obtain ⟨op, found, h1, h2, h3⟩ := h
  have hop := h1
  obtain ⟨n, f, _, _, rfl⟩ := hop
  rw [ha] at h2
  obtain ⟨k1, k2⟩ := found_objs hgood d o _ found items (hT.found _ _ _ _ _ _ _ _ _ h2) h3
  exact ⟨⟨_, found, h1, by rw [ha]; exact h2, k1⟩, k2⟩

/-- what the theorem says about one call -/
def Holds (lower norm : Str → Str) (mo : Str → Bytes → Bytes → Bool) (under : Str → Str → Prop) (system : Str → Prop) (dir : Directory D) (contents : S → D) (at_ : D → Str → Option (Spec.Entry Bytes))
    (G : Str → AVal → Prop) (env : Api.Env V R) (d : D) (o : Api.Obj) (m : Api.Method) (t : Api.Turn Received.Decoded S) : Prop :=
  Means norm mo under system dir at_ env d o m t.result t.obj (contents t.link.peer) ∧ SessionP.Ready t.link.st ∧ Alive lower norm at_ G (contents t.link.peer) t.obj ∧
    ∀ n ∈ given t.result, Alive lower norm at_ G (contents t.link.peer) n

/-- a call that raised and has changed nothing -/
theorem raised (env : Api.Env V R) (d : D) (o : Api.Obj) (m : Api.Method) (l : Link Received.Decoded S) (hr : SessionP.Ready l.st) (hd : contents l.peer = d) (ho : Alive lower norm at_ G d o) (x : Err) :
    Holds lower norm mo under system dir contents at_ G env d o m ⟨l, o, .error x⟩ :=
  ⟨⟨fun y => by show at_ (contents l.peer) y = _; rw [hd], rfl⟩, hr, by show Alive lower norm at_ G (contents l.peer) o; rw [hd]; exact ho, nofun⟩

/-- the calls that change attributes -/
theorem attrs_step (h : Setting dir contents peer lower norm mo under system at_ typeOf G) (env : Api.Env V R) (strict : Bool) (l : Link Received.Decoded S) (hr : SessionP.Ready l.st) (o : Api.Obj) (dn : Str)
    (hdn : o.dn = some dn) (e : Spec.Entry Bytes) (he : at_ (contents l.peer) (norm dn) = some e) (hv : View lower G (⟨o.attrs, seen e⟩ : Props.Session AVal)) (c : ObjCall AVal)
    (hc : CleanCall lower typeOf (onBytes mo) G ⟨o.attrs, seen e⟩ (env.forObj strict dn).obj c) (P : Spec.Entry Bytes → Spec.Entry Bytes → AttrsDict AVal → Prop)
    (heff : ∀ (w : World S) (entry : S → Spec.Entry Bytes), Conforms lower mo dn entry peer → Good lower entry G w → CleanCall lower typeOf (onBytes mo) G (w.session entry) (env.forObj strict dn).obj c →
      let r := callOver lower typeOf peer (env.forObj strict dn) w c
      (r.2 = .ok () → P (entry w.link.peer) (entry r.1.link.peer) r.1.obj) ∧ (∀ x, r.2 = .error x → entry r.1.link.peer = entry w.link.peer))
    (a : After Received.Decoded S) (ha : callOver lower typeOf peer (env.forObj strict dn) ⟨o.attrs, l⟩ c = (⟨a.obj, a.link⟩, a.result)) (m : Api.Method)
    (hm : ∀ e', at_ (contents a.link.peer) (norm dn) = some e' → (∀ x, x ≠ norm dn → at_ (contents a.link.peer) x = at_ (contents l.peer) x) → P e e' a.obj →
      Means norm mo under system dir at_ env (contents l.peer) o m (.ok .done) { o with attrs := a.obj } (contents a.link.peer)) :
    Holds lower norm mo under system dir contents at_ G env (contents l.peer) o m (.ofAfter o a) := by
  obtain ⟨h1, e', h2, h3, h4, h5, h6⟩ := over_step h.serves h.entries h.decides h.fold h.shows (env.forObj strict dn) l hr o.attrs e he hv c hc P heff
  simp only [ha] at h1 h2 h3 h4 h5 h6
  have hal : Alive lower norm at_ G (contents a.link.peer) { o with attrs := a.obj } := by
    unfold Alive
    show match o.dn with | none => _ | some dn => _
    rw [hdn]
    exact ⟨e', h2, h3⟩
  cases hres : a.result with
  | ok _ =>
    have := hm e' h2 h4 (h5 hres)
    refine ⟨?_, h1, hal, ?_⟩
    · simp only [Api.Turn.ofAfter, hres, Except.map]
      exact this
    · simp only [Api.Turn.ofAfter, hres, Except.map, given]
      exact nofun
  | error x =>
    refine ⟨?_, h1, hal, ?_⟩
    · simp only [Api.Turn.ofAfter, hres, Except.map]
      refine ⟨fun y => ?_, rfl⟩
      by_cases hy : y = norm dn
      · subst hy
        rw [show at_ (contents a.link.peer) (norm dn) = some e' from h2, he, h6 x hres]
      · exact h4 y hy
    · simp only [Api.Turn.ofAfter, hres, Except.map, given]
      exact nofun

/-- a change of name -/
theorem rename_step (h : Setting dir contents peer lower norm mo under system at_ typeOf G) (env : Api.Env V R) (hlow : env.lower = lower) (l : Link Received.Decoded S) (hr : SessionP.Ready l.st) (o : Api.Obj)
    (a v parent a' v' : Str) (hp : PlainRdn a v) (hp' : PlainRdn a' v') (hdn : o.dn = some (below (avaRdn a v) parent)) (e : Spec.Entry Bytes)
    (he : at_ (contents l.peer) (norm (below (avaRdn a v) parent)) = some e) (hv : View lower G (⟨o.attrs, seen e⟩ : Props.Session AVal)) (hg : G a (.text v)) (hg' : G a' (.text v')) (hk : ShowsValues lower e o.attrs a')
    (clean : Bool) (newParent : Option Str) :
    let t := Api.modDnObj codec (fun d => d.1.1) peer env typeOf l o (below (avaRdn a v) parent) (avaRdn a' v') clean newParent
    SessionP.Ready t.link.st ∧ Alive lower norm at_ G (contents t.link.peer) t.obj ∧
    ((∃ x, t.result = .error x ∧ t.obj = o ∧ contents t.link.peer = contents l.peer) ∨
     (t.result = .ok .done ∧ t.obj.dn = some (below (avaRdn a' v') (newParent.getD parent)) ∧
      Renamed lower mo norm under at_ (contents l.peer) (contents t.link.peer) (below (avaRdn a v) parent) (avaRdn a' v') clean (below (avaRdn a' v') (newParent.getD parent)) newParent)) := by
  intro t
  simp only [t, Api.modDnObj, plain_dn hp parent]
  have hready := (call_ready env h.serves l hr).2.2.1 (below (avaRdn a v) parent) (avaRdn a' v') clean (some (newParent.getD parent))
  have heff := (c90_call h.serves env l hr (.modDn (below (avaRdn a v) parent) (avaRdn a' v') clean (some (newParent.getD parent)))).1
  have halive : Alive lower norm at_ G (contents l.peer) o := by
    unfold Alive
    rw [hdn]
    exact ⟨e, he, hv⟩
  revert hready heff
  rcases Api.call codec (fun d => d.1.1) peer env l (.modDn (below (avaRdn a v) parent) (avaRdn a' v') clean (some (newParent.getD parent))) with ⟨l', x | ret⟩
  · intro hready heff
    have hd : contents l'.peer = contents l.peer := heff
    refine ⟨hready, ?_, .inl ⟨x, rfl, rfl, hd⟩⟩
    show Alive lower norm at_ G (contents l'.peer) o
    rw [hd]
    exact halive
  · rintro hready ⟨hup, _⟩
    obtain ⟨e1, k1, k2, k3, k4⟩ := h.tree.rename _ a v parent a' v' clean (newParent.getD parent) _ hp hp' hup
    rw [he] at k1
    cases k1
    have hsim := Laurelin.Props.rename_sim lower typeOf h.decides h.fold o.attrs (seen e) a (.text v) a' (.text v') clean hv.inv hv.good hg hg' (agrees_of e o.attrs a' hk)
    have hgood := Laurelin.Props.rename_good lower h.fold (seen e) a (.text v) a' (.text v') clean hv.good hg'
    rw [srvRename_seen e a (.text v) a' (.text v') (h.shows _ _ hg') clean] at hsim hgood
    obtain ⟨s1, s2, s3⟩ := hsim
    have hren : Api.renameAttrs env typeOf o.attrs (avaRdn a v) (avaRdn a' v') clean = putVal lower typeOf (if clean then dropVal lower typeOf o.attrs a (.text v) else o.attrs) a' (.text v') := by
      simp only [Api.renameAttrs, plain_ava hp, plain_ava hp', hlow]
      cases clean <;> rfl
    simp only [hren]
    have hview := Laurelin.Props.rename_view lower typeOf h.decides h.fold o.attrs (seen e) a (.text v) a' (.text v') clean hv.inv hv.good hv.view hg hg' (agrees_of e o.attrs a' hk)
    rw [srvRename_seen e a (.text v) a' (.text v') (h.shows _ _ hg') clean] at hview
    revert s1 s2 s3 hview
    rcases putVal lower typeOf (if clean then dropVal lower typeOf o.attrs a (.text v) else o.attrs) a' (.text v') with ⟨d', x | u⟩
    · intro _ s2
      cases s2
    · intro s1 _ s3 hview
      refine ⟨hready, ⟨_, k2, s1, hgood, hview⟩, .inr ⟨rfl, rfl, ?_⟩⟩
      exact ⟨a, v, parent, a', v', hp, hp', rfl, rfl, rfl, ⟨e, he, k2⟩, k3, k4⟩

/-- without keywords these exceptions do not occur -/
theorem getOne_plain (env : Api.Env V R) (hs : Serves dir contents peer) (l : Link Received.Decoded S) (hr : SessionP.Ready l.st) (dn : Str) (attrs : Option (List Str)) :
    let x := Api.getOne codec (fun d => d.1.1) peer env l dn attrs []
    x.2 ≠ .error .tagError ∧ x.2 ≠ .error .typeError := by
  intro x
  simp only [x, Api.getOne]
  by_cases hu : env.conn.unbound = true
  · simp only [if_pos hu]
    exact ⟨nofun, nofun⟩
  · simp only [if_neg hu]
    have g := DirP.searchAll_plain env hs l hr (Api.getArgs dn attrs []) rfl
    revert g
    rcases Api.searchAll codec (fun d => d.1.1) peer env l (Api.getArgs dn attrs []) with ⟨l', e | items⟩
    · exact fun g => ⟨fun h => g.1 (by simpa using h), fun h => g.2 (by simpa using h)⟩
    · intro _
      match items with
      | [] => exact ⟨nofun, nofun⟩
      | [_] => exact ⟨nofun, nofun⟩
      | _ :: _ :: _ => exact ⟨nofun, nofun⟩

/-- **One call** on an object that is not deleted. -/
theorem act_step (h : Setting dir contents peer lower norm mo under system at_ typeOf G) (s : Api.ObjStep V R) (hlow : s.env.lower = lower) (l : Link Received.Decoded S) (hr : SessionP.Ready l.st) (o : Api.Obj) (dn : Str)
    (hdn : o.dn = some dn) (e : Spec.Entry Bytes) (he : at_ (contents l.peer) (norm dn) = some e) (hv : View lower G (⟨o.attrs, seen e⟩ : Props.Session AVal)) (hc : Careful lower norm typeOf mo G s o dn e) :
    Holds lower norm mo under system dir contents at_ G s.env (contents l.peer) o s.method (Api.act codec (fun d => d.1.1) peer s.env typeOf s.strict l o s.method) := by
  obtain ⟨env, strict, m, follow⟩ := s
  dsimp only at *
  have halive : Alive lower norm at_ G (contents l.peer) o := by
    unfold Alive
    rw [hdn]
    exact ⟨e, he, hv⟩
  cases m with
  | modify mods =>
    simp only [Api.act, hdn, hlow]
    refine attrs_step h env strict l hr o dn hdn e he hv (.modify mods) hc (fun e e' _ => srvModify lower mo e (changes mods) = .ok e') (fun w entry hconf hw hcl => ?_) _ rfl _
      (fun e' h1 h2 h3 => ⟨dn, hdn, rfl, rfl, ⟨e, e', he, h1, by rw [hlow]; exact h3⟩, h2⟩)
    have hmeant : (meant mods).map toBytes = changes mods := by
      simp only [meant, changes, List.map_map]
      refine List.map_congr_left (fun md _ => ?_)
      simp only [Function.comp, toBytes, valsList]
      cases md.vals <;> rfl
    refine ⟨fun hok => ?_, fun x hx => ((modify_over h.decides h.fold h.shows _ hconf w hw mods hcl).2.2.1 x hx).2⟩
    rw [← hmeant]
    exact modify_bytes h.decides h.fold h.shows _ hconf w hw mods hcl hok
  | addAttrs new =>
    obtain ⟨hn, hc⟩ := hc
    simp only [Api.act, hdn, hlow]
    refine attrs_step h env strict l hr o dn hdn e he hv (.addAttrs new) hc (fun e e' _ => Becomes lower e e' new (fun a vs cur => withAdded (mo a) cur (vs.map (·.bytes)))) (fun w entry hconf hw hcl => ?_) _ rfl _
      (fun e' h1 h2 h3 => ⟨dn, hdn, rfl, rfl, ⟨e, e', he, h1, by rw [hlow]; exact h3⟩, h2⟩)
    obtain ⟨k1, k2⟩ := add_over h.decides h.fold h.shows _ hconf w hw new hn hcl
    exact ⟨fun hok => (k1 hok).1, k2⟩
  | replaceAttrs new =>
    obtain ⟨hn, hc⟩ := hc
    simp only [Api.act, hdn, hlow]
    refine attrs_step h env strict l hr o dn hdn e he hv (.replaceAttrs new) hc (fun e e' _ => Becomes lower e e' new (fun _ vs _ => replacing vs)) (fun w entry hconf hw hcl => ?_) _ rfl _
      (fun e' h1 h2 h3 => ⟨dn, hdn, rfl, rfl, ⟨e, e', he, h1, by rw [hlow]; exact h3⟩, h2⟩)
    obtain ⟨k1, k2⟩ := replace_over h.decides h.fold h.shows _ hconf w hw new hn hcl
    refine ⟨fun hok => ?_, k2⟩
    have hrep : (fun (_ : Str) (vs : Vals AVal) (_ : List Bytes) => replacing vs) = fun _ vs _ => (valsList vs).map AVal.bytes := by
      funext _ vs _
      cases vs <;> rfl
    rw [hrep]
    exact (k1 hok).1
  | deleteAttrs del =>
    obtain ⟨hn, hc⟩ := hc
    simp only [Api.act, hdn, hlow]
    refine attrs_step h env strict l hr o dn hdn e he hv (.deleteAttrs del) hc (fun e e' _ => Becomes lower e e' del (fun a vs cur => deleting (mo a) vs cur)) (fun w entry hconf hw hcl => ?_) _ rfl _
      (fun e' h1 h2 h3 => ⟨dn, hdn, rfl, rfl, ⟨e, e', he, h1, by rw [hlow]; exact h3⟩, h2⟩)
    obtain ⟨k1, k2⟩ := delete_over h.decides h.fold h.shows _ hconf w hw del hn hcl
    refine ⟨fun hok => ?_, k2⟩
    have hdel : (fun (a : Str) (vs : Vals AVal) (cur : List Bytes) => deleting (mo a) vs cur) = fun a vs cur => deleted (mo a) vs cur := by
      funext a vs cur
      cases vs with
      | deleteAll => rfl
      | list l => cases l <;> rfl
    rw [hdel]
    exact (k1 hok).1
  | refresh attrs =>
    simp only [Api.act, hdn, hlow]
    exact attrs_step h env strict l hr o dn hdn e he hv (.refresh attrs) trivial (fun e e' obj => e' = e ∧ ∀ a ∈ attrs, ShowsValues lower e obj a)
      (fun w entry hconf hw hcl => refresh_eff _ attrs w entry hconf hw) _ rfl _
      (fun e' h1 h2 h3 => ⟨dn, hdn, rfl, rfl, fun x => by
        by_cases hx : x = norm dn
        · rw [hx, h1, he, h3.1]
        · exact h2 x hx, e, he, by rw [hlow]; exact h3.2⟩)
  | compare attr value =>
    simp only [Api.act, hdn]
    have hready := (call_ready env.plain h.serves l hr).2.2.2 dn attr value
    have heff := (c90_call h.serves env.plain l hr (.compare dn attr value)).1
    revert hready heff
    rcases Api.call codec (fun d => d.1.1) peer env.plain l (.compare dn attr value) with ⟨l', x | ret⟩
    · intro hready heff
      exact raised env _ o _ l' hready heff halive x
    · rintro hready ⟨hd, b, rfl, hb⟩
      exact ⟨⟨dn, hdn, rfl, hd, b, rfl, hb⟩, hready, by rw [show contents (⟨l', o, .ok (.truth b)⟩ : Api.Turn Received.Decoded S).link.peer = contents l.peer from hd]; exact halive, nofun⟩
  | delete =>
    simp only [Api.act, hdn]
    have hready := (call_ready env h.serves l hr).2.1 dn
    have heff := (c90_call h.serves env l hr (.delete dn)).1
    revert hready heff
    rcases Api.call codec (fun d => d.1.1) peer env l (.delete dn) with ⟨l', x | ret⟩
    · intro hready heff
      exact raised env _ o _ l' hready heff halive x
    · rintro hready ⟨hup, rfl⟩
      obtain ⟨k1, k2, k3⟩ := h.tree.delete _ _ _ hup
      refine ⟨⟨dn, hdn, rfl, rfl, k1, k2, k3⟩, hready, fun a => ?_, nofun⟩
      exact (view_empty (lower := lower) (G := fun _ _ => True) (fun _ => []) (fun _ _ _ => trivial)).2 a
  | modDn newRdn clean parent =>
    obtain ⟨a, v, par, a', v', hp, hp', rfl, rfl, hg, hg', hk⟩ := hc
    simp only [Api.act, hdn]
    obtain ⟨k1, k2, k3⟩ := rename_step h env hlow l hr o a v par a' v' hp hp' hdn e he hv hg hg' hk clean parent
    revert k1 k2 k3
    generalize Api.modDnObj codec (fun d => d.1.1) peer env typeOf l o (below (avaRdn a v) par) (avaRdn a' v') clean parent = t
    obtain ⟨l', o', res⟩ := t
    intro k1 k2 k3
    rcases k3 with ⟨x, rfl, rfl, hd⟩ | ⟨rfl, hd, hren⟩
    · exact raised env _ _ _ l' k1 hd halive x
    · exact ⟨⟨_, hdn, rfl, _, hd, by rw [hlow]; exact hren⟩, k1, k2, nofun⟩
  | move newDn clean =>
    obtain ⟨a, v, par, a', v', sup, hp, hp', rfl, rfl, hg, hg', hk⟩ := hc
    simp only [Api.act, hdn, plain_dn hp' sup]
    obtain ⟨k1, k2, k3⟩ := rename_step h env hlow l hr o a v par a' v' hp hp' hdn e he hv hg hg' hk clean (some sup)
    revert k1 k2 k3
    generalize Api.modDnObj codec (fun d => d.1.1) peer env typeOf l o (below (avaRdn a v) par) (avaRdn a' v') clean (some sup) = t
    obtain ⟨l', o', res⟩ := t
    intro k1 k2 k3
    rcases k3 with ⟨x, rfl, rfl, hd⟩ | ⟨rfl, hd, hren⟩
    · exact raised env _ _ _ l' k1 hd halive x
    · exact ⟨⟨_, hdn, rfl, hd, _, sup, rfl, by rw [hlow]; exact hren⟩, k1, k2, nofun⟩
  | getChild rdn attrs =>
    simp only [Api.act, hdn]
    rcases child_name o dn hdn rdn with ⟨x, hx⟩ | ⟨child, hx, hch⟩
    · rw [hx]
      exact raised env _ o _ l hr rfl halive x
    · rw [hx]
      dsimp only
      obtain ⟨g1, g2, _, _, g3⟩ := DirP.getOne_step env h.serves l hr child attrs []
      have g4 := getOne_plain env h.serves l hr child attrs
      revert g1 g2 g3 g4
      rcases Api.getOne codec (fun d => d.1.1) peer env l child attrs [] with ⟨l', x | i⟩
      · intro g1 g2 g3 g4
        exact raised env _ o _ l' (g3 g4.1 g4.2) g1 halive x
      · intro g1 g2 g3 g4
        dsimp only at g1
        obtain ⟨op, p, k1, k2, k3⟩ := g2 i rfl
        obtain ⟨f1, f2⟩ := search_objs (R := R) h.tree h.good env.conn (contents l.peer) o (Api.getArgs child attrs []) rfl [i] ⟨op, [p], k1, k2, k3⟩
        obtain ⟨n, f, q1, _, rfl⟩ := k1
        have hn : n = 0 := by
          simp only [Api.getArgs, Spec.Wire.scopeNumber, Option.some.injEq] at q1
          exact q1.symm
        subst hn
        have hname := h.creates.named _ child _ _ _ _ _ _ k2 p (by simp)
        cases k3 with
        | cons k3 _ =>
          obtain ⟨got, rfl, _⟩ := k3
          refine ⟨⟨dn, hdn, rfl, g1, child, _, hch, rfl, ⟨p.1, rfl, hname⟩, by rw [hlow]; exact f1⟩, g3 nofun nofun, ?_, ?_⟩
          · show Alive lower norm at_ G (contents l'.peer) o
            rw [g1]; exact halive
          · show ∀ n ∈ _, Alive lower norm at_ G (contents l'.peer) n
            rw [g1, hlow]; exact f2
  | addChild rdn attrs =>
    obtain ⟨hn, hvals⟩ := hc
    simp only [Api.act, hdn]
    rcases child_name o dn hdn rdn with ⟨x, hx⟩ | ⟨child, hx, hch⟩
    · rw [hx]
      exact raised env _ o _ l hr rfl halive x
    · rw [hx]
      dsimp only
      have hready := (call_ready env h.serves l hr).1 child attrs
      have heff := (c90_call h.serves env l hr (.add child attrs)).1
      have hobj := add_object (peer := peer) env l child attrs
      revert hready heff hobj
      rcases Api.call codec (fun d => d.1.1) peer env l (.add child attrs) with ⟨l', x | ret⟩
      · intro hready heff _
        exact raised env _ o _ l' hready heff halive x
      · rintro hready ⟨hup, obj, rfl, hval⟩ hobj
        obtain ⟨_, rfl⟩ := hobj child obj rfl
        rw [hlow] at hval
        obtain ⟨h4, h5⟩ := hval hn
        have hop : Spec.Wire.Op.addRequest (utf8Enc child) (attrs.map Spec.Wire.ofAttr) = Spec.PatternsS.addOp child (attrs.map (fun kv => (kv.1, kv.2.map AVal.bytes))) := by
          simp only [Spec.PatternsS.addOp, List.map_map]
          rfl
        rw [hop] at hup
        obtain ⟨k1, ⟨e', k2, k3⟩, k4⟩ := h.creates.add _ _ _ _ (by rw [List.map_map]; exact hn) hup
        have hnew : Alive lower norm at_ G (contents l'.peer) ⟨some child, CIDict.update lower CIDict.empty attrs, o.scope, o.rdnAttr⟩ := by
          refine ⟨e', k2, (CIDict.update_ok lower attrs CIDict.empty (CIDict.inv_empty lower)).1, h.good _ _ e' k2, fun a ha => ?_⟩
          by_cases hex : ∃ kv ∈ attrs, lower kv.1 = lower a
          · obtain ⟨kv, hkv, hka⟩ := hex
            show AttrsDict.getAttr lower (CIDict.update lower CIDict.empty attrs) a = seen e' (lower a)
            rw [← getAttr_fold (lower := lower) _ _ _ hka, h4 kv hkv, ← hka, seen, k3.1 (kv.1, kv.2.map AVal.bytes) (List.mem_map.2 ⟨kv, hkv, rfl⟩)]
            exact pairwise_shown _ _ (shows_given _ (fun v hv' => h.shows _ _ (hvals kv hkv v hv')))
          · exact absurd (h5 a (fun kv hkv hka => hex ⟨kv, hkv, hka⟩)) ha
        have hne : norm dn ≠ norm child := fun heq => by
          rw [heq, k1] at he
          cases he
        rw [hlow]
        refine ⟨⟨dn, hdn, rfl, child, _, hch, rfl, rfl, rfl, rfl, k1, ⟨e', k2, by rw [hlow]; exact k3⟩, k4, by rw [hlow]; exact h4, by rw [hlow]; exact alive_mirrors hnew⟩, hready, ?_, fun n hn' => ?_⟩
        · refine alive_same halive (fun dn' hdn' => ?_)
          rw [hdn] at hdn'
          cases hdn'
          exact k4 _ hne
        · simp only [given, List.filterMap_cons, id, List.filterMap_nil, List.mem_singleton] at hn'
          subst hn'
          exact hnew
  | deleteChild rdn =>
    simp only [Api.act, hdn]
    rcases child_name o dn hdn rdn with ⟨x, hx⟩ | ⟨child, hx, hch⟩
    · rw [hx]
      exact raised env _ o _ l hr rfl halive x
    · rw [hx]
      dsimp only
      have hready := (call_ready env h.serves l hr).2.1 child
      have heff := (c90_call h.serves env l hr (.delete child)).1
      revert hready heff
      rcases Api.call codec (fun d => d.1.1) peer env l (.delete child) with ⟨l', x | ret⟩
      · intro hready heff
        exact raised env _ o _ l' hready heff halive x
      · rintro hready ⟨hup, rfl⟩
        obtain ⟨k1, k2, k3⟩ := h.tree.delete _ _ _ hup
        refine ⟨⟨dn, hdn, rfl, rfl, child, hch, k1, k2, k3⟩, hready, alive_same halive (fun dn' hdn' => ?_), nofun⟩
        rw [hdn] at hdn'
        cases hdn'
        exact k3 _ (fun heq => hc child hch heq.symm)
  | search filter attrs =>
    simp only [Api.act, hdn]
    have g := DirP.searchAll_step env h.serves l hr { base := dn, scope := o.scope, filter := filter, attrs := attrs }
    have g4 := DirP.searchAll_plain env h.serves l hr { base := dn, scope := o.scope, filter := filter, attrs := attrs } rfl
    revert g g4
    rcases Api.searchAll codec (fun d => d.1.1) peer env l { base := dn, scope := o.scope, filter := filter, attrs := attrs } with ⟨l', x | items⟩
    · rintro ⟨g1, _, g3, _⟩ g4
      exact raised env _ o _ l' (g3 g4.1 g4.2) g1 halive x
    · rintro ⟨g1, g2, g3, _⟩ g4
      dsimp only at g1
      obtain ⟨f1, f2⟩ := search_objs (R := R) h.tree h.good env.conn (contents l.peer) o { base := dn, scope := o.scope, filter := filter, attrs := attrs } rfl items (g2 items rfl)
      dsimp only
      rw [hlow]
      refine ⟨⟨dn, hdn, rfl, g1, _, rfl, by rw [hlow]; exact f1⟩, g3 nofun nofun, ?_, ?_⟩
      · show Alive lower norm at_ G (contents l'.peer) o
        rw [g1]; exact halive
      · show ∀ n ∈ _, Alive lower norm at_ G (contents l'.peer) n
        rw [g1]; exact f2
  | find rdn attrs =>
    simp only [Api.act, hdn]
    have hnames : o.names.dn = some dn := hdn
    have hconn : o.names.conn = true := by
      simp only [Api.Obj.names, hdn]
      rfl
    have key : (∃ x, o.names.findArgs (V := V) rdn attrs [] = .error x) ∨ ∃ a : SearchArgs V, o.names.findArgs rdn attrs [] = .ok a ∧ a.attrsOnly = false ∧ a.kwds = [] ∧
        ((o.scope = .one ∧ ∃ child, Child o dn rdn child ∧ a = { base := child, scope := .base, attrs := attrs, limit := 2 }) ∨
         (o.scope = .sub ∧ ∃ full, Rdn o rdn full ∧ a = { base := dn, scope := .sub, filter := some (str "(" ++ full ++ str ")"), fsyntax := some .standard, attrs := attrs, limit := 2 })) := by
      simp only [LObj.findArgs, hconn, Bool.true_eq_false, if_false]
      have hsc : o.names.scope = o.scope := rfl
      rw [hsc]
      cases hsco : o.scope with
      | base => exact .inl ⟨_, rfl⟩
      | other => exact .inl ⟨_, rfl⟩
      | one =>
        rcases child_name o dn hdn rdn with ⟨x, hx⟩ | ⟨child, hx, hch⟩
        · simp only [hx]; exact .inl ⟨_, rfl⟩
        · simp only [hx]; exact .inr ⟨_, rfl, rfl, rfl, .inl ⟨trivial, child, hch, rfl⟩⟩
      | sub =>
        rcases rdn_name o rdn with ⟨x, hx⟩ | ⟨full, hx, hch⟩
        · simp only [hx]; exact .inl ⟨_, rfl⟩
        · simp only [hx, hnames]; exact .inr ⟨_, rfl, rfl, rfl, .inr ⟨trivial, full, hch, rfl⟩⟩
    rcases key with ⟨x, hx⟩ | ⟨a, hx, ha1, ha2, ha3⟩
    · rw [hx]
      exact raised env _ o _ l hr rfl halive x
    · rw [hx]
      dsimp only
      have g := DirP.searchAll_step env h.serves l hr a
      have g4 := DirP.searchAll_plain env h.serves l hr a ha2
      revert g g4
      rcases Api.searchAll codec (fun d => d.1.1) peer env l a with ⟨l', x | items⟩
      · rintro ⟨g1, _, g3, _⟩ g4
        exact raised env _ o _ l' (g3 g4.1 g4.2) g1 halive x
      · rintro ⟨g1, g2, g3, _⟩ g4
        dsimp only at g1
        obtain ⟨f1, f2⟩ := search_objs (R := R) h.tree h.good env.conn (contents l.peer) o a ha1 items (g2 items rfl)
        simp only [Api.oneObj]
        match items, f1, f2 with
        | [], _, _ => exact raised env _ o _ l' (g3 nofun nofun) g1 halive .noResults
        | _ :: _ :: _, _, _ => exact raised env _ o _ l' (g3 nofun nofun) g1 halive .multipleResults
        | [i], f1, f2 =>
          obtain ⟨op, found, q1, q2, q3⟩ := f1
          rw [List.map_cons, List.map_nil] at q3
          have hn : ∃ n, o.made lower i = some n := by
            cases q3 with
            | cons q3 _ =>
              obtain ⟨n, hn, _⟩ := q3
              exact ⟨n, hn⟩
          obtain ⟨n, hn⟩ := hn
          rw [hn] at q3
          simp only [List.map_cons, List.map_nil, hn] at f2
          simp only [Search.getOneResult, hlow, hn]
          have hf : FoundAs env.lower norm dir at_ env.conn (contents l.peer) o a [some n] := ⟨op, found, q1, q2, by rw [hlow]; exact q3⟩
          refine ⟨⟨dn, hdn, rfl, g1, n, rfl, ?_⟩, g3 nofun nofun, ?_, ?_⟩
          · rcases ha3 with ⟨hs1, child, hch, rfl⟩ | ⟨hs1, full, hch, rfl⟩
            · exact .inl ⟨hs1, child, hch, hf⟩
            · exact .inr ⟨hs1, full, hch, hf⟩
          · show Alive lower norm at_ G (contents l'.peer) o
            rw [g1]; exact halive
          · show ∀ n ∈ _, Alive lower norm at_ G (contents l'.peer) n
            rw [g1]; exact f2

/-! ## Histories -/

/-- every call of the program is careful at the moment it is made -/
def CarefulOver (peer : Peer S) (contents : S → D) (at_ : D → Str → Option (Spec.Entry Bytes)) (lower norm : Str → Str) (typeOf : TypeOf AVal) (mo : Str → Bytes → Bytes → Bool) (G : Str → AVal → Prop)
    (l : Link Received.Decoded S) (o : Api.Obj) : List (Api.ObjStep V R) → Prop
  | [] => True
  | s :: rest => s.env.lower = lower ∧ (∀ dn e, o.dn = some dn → at_ (contents l.peer) (norm dn) = some e → Careful lower norm typeOf mo G s o dn e) ∧
      let t := Api.act codec (fun d => d.1.1) peer s.env typeOf s.strict l o s.method
      CarefulOver peer contents at_ lower norm typeOf mo G t.link (Api.chosen t.obj s.follow t.result) rest

theorem any_step (h : Setting dir contents peer lower norm mo under system at_ typeOf G) (s : Api.ObjStep V R) (hlow : s.env.lower = lower) (l : Link Received.Decoded S) (hr : SessionP.Ready l.st) (o : Api.Obj)
    (ho : Alive lower norm at_ G (contents l.peer) o) (hc : ∀ dn e, o.dn = some dn → at_ (contents l.peer) (norm dn) = some e → Careful lower norm typeOf mo G s o dn e) :
    Holds lower norm mo under system dir contents at_ G s.env (contents l.peer) o s.method (Api.act codec (fun d => d.1.1) peer s.env typeOf s.strict l o s.method) := by
  cases hdn : o.dn with
  | none =>
    have : Api.act codec (fun d => d.1.1) peer s.env typeOf s.strict l o s.method = ⟨l, o, .error (Api.deadErr s.method)⟩ := by
      unfold Api.act
      rw [hdn]
    rw [this]
    exact raised s.env _ o _ l hr rfl ho _
  | some dn =>
    have ho' := ho
    unfold Alive at ho'
    rw [hdn] at ho'
    obtain ⟨e, he, hv⟩ := ho'
    exact act_step h s hlow l hr o dn hdn e he hv (hc dn e hdn he)

theorem chosen_alive {d : D} {o : Api.Obj} (ho : Alive lower norm at_ G d o) (follow : Option Nat) (res : Except Err Api.Returned) (hres : ∀ n ∈ given res, Alive lower norm at_ G d n) :
    Alive lower norm at_ G d (Api.chosen o follow res) := by
  unfold Api.chosen
  split
  · rename_i k l
    split
    · rename_i n hn
      exact hres n (List.mem_filterMap.2 ⟨some n, List.mem_of_getElem? hn, rfl⟩)
    · exact ho
  · exact ho

theorem history (h : Setting dir contents peer lower norm mo under system at_ typeOf G) (hist : List (Api.ObjStep V R)) :
    ∀ (l : Link Received.Decoded S) (o : Api.Obj), SessionP.Ready l.st → Alive lower norm at_ G (contents l.peer) o → CarefulOver peer contents at_ lower norm typeOf mo G l o hist →
      let r := Api.runObj codec (fun d => d.1.1) peer typeOf l o hist
      SessionP.Ready r.1.st ∧ Alive lower norm at_ G (contents r.1.peer) r.2.1 := by
  induction hist with
  | nil => exact fun l o hr ho _ => ⟨hr, ho⟩
  | cons s rest ih =>
    intro l o hr ho hc
    obtain ⟨h1, h2, h3⟩ := hc
    obtain ⟨_, k1, k2, k3⟩ := any_step h s h1 l hr o ho h2
    exact ih _ _ k1 (chosen_alive k2 s.follow _ k3) h3

theorem made_alive (h : Setting dir contents peer lower norm mo under system at_ typeOf G) (d : D) (dn : Str) (e : Spec.Entry Bytes) (he : at_ d (norm dn) = some e) (scope : Scope) (rdnAttr : Option Str) :
    Alive lower norm at_ G d ⟨some dn, CIDict.empty, scope, rdnAttr⟩ :=
  ⟨e, he, (view_empty (lower := lower) (seen e) (h.good _ _ e he)).1⟩

theorem dead_run (peer : Peer S) (typeOf : TypeOf AVal) (hist : List (Api.ObjStep V R)) : ∀ (l : Link Received.Decoded S) (o : Api.Obj), o.dn = none →
    let r := Api.runObj codec (fun d => d.1.1) peer typeOf l o hist
    r.1 = l ∧ r.2.1 = o ∧ ∀ res ∈ r.2.2, ∃ x, res = .error x := by
  induction hist with
  | nil => exact fun l o _ => ⟨rfl, rfl, nofun⟩
  | cons s rest ih =>
    intro l o ho
    have : Api.act codec (fun d => d.1.1) peer s.env typeOf s.strict l o s.method = ⟨l, o, .error (Api.deadErr s.method)⟩ := by
      unfold Api.act
      rw [ho]
    have hch : Api.chosen o s.follow (.error (Api.deadErr s.method)) = o := by
      unfold Api.chosen
      split
      · rename_i hx; cases hx
      · rfl
    simp only [Api.runObj, this, hch]
    obtain ⟨k1, k2, k3⟩ := ih l o ho
    refine ⟨k1, k2, fun res hres => ?_⟩
    rcases List.mem_cons.1 hres with rfl | hres
    · exact ⟨_, rfl⟩
    · exact k3 res hres

end
end ObjP

section
open WireP OverWire OverWireP ObjP
open Laurelin.Spec.DirectoryS (Directory Serves)
open Laurelin.Spec.EntriesS (Entries)
open Laurelin.Spec.PatternsS (Creates)
open Laurelin.Spec.ObjectS
variable {V R S D : Type} {dir : Directory D} {contents : S → D} {peer : Peer S} {lower norm : Str → Str} {mo : Str → Bytes → Bytes → Bool} {at_ : D → Str → Option (Spec.Entry Bytes)}
  {under : Str → Str → Prop} {system : Str → Prop} {typeOf : TypeOf AVal} {G : Str → AVal → Prop}

/-- **C100 (every call, partial: careful calls).** An object of an entry of a directory is made on a new connection to any server that has this directory, and a program makes calls on it, going on with one of the
objects returned whenever it likes; each call is careful (`ObjP.Careful`). Then the next careful call either raises, and no entry has changed, nor the name of the object; or it returns, and the directory has
changed, or been read, exactly as the method means (`Means`); and in any case the object, and each object returned, is of an entry and shows only what this entry has now - or it is deleted and shows nothing. -/
theorem c100_call_partial (h : Setting dir contents peer lower norm mo under system at_ typeOf G) (s0 : S) (dn : Str) (hdn : at_ (contents s0) (norm dn) ≠ none) (scope : Scope) (rdnAttr : Option Str)
    (hist : List (Api.ObjStep V R)) (hc : CarefulOver peer contents at_ lower norm typeOf mo G ⟨Session.St.init, s0⟩ ⟨some dn, CIDict.empty, scope, rdnAttr⟩ hist) (s : Api.ObjStep V R) :
    let r := Api.runObj codec (fun d => d.1.1) peer typeOf ⟨Session.St.init, s0⟩ ⟨some dn, CIDict.empty, scope, rdnAttr⟩ hist
    CarefulOver peer contents at_ lower norm typeOf mo G r.1 r.2.1 [s] →
    let t := Api.act codec (fun d => d.1.1) peer s.env typeOf s.strict r.1 r.2.1 s.method
    Means norm mo under system dir at_ s.env (contents r.1.peer) r.2.1 s.method t.result t.obj (contents t.link.peer) ∧ Mirrors lower norm at_ (contents t.link.peer) t.obj ∧
    ∀ l n, t.result = .ok (.objs l) → some n ∈ l → Mirrors lower norm at_ (contents t.link.peer) n := by
  intro r hs t
  obtain ⟨e, he⟩ := Option.ne_none_iff_exists'.1 hdn
  obtain ⟨h1, h2⟩ := history h hist ⟨Session.St.init, s0⟩ _ SessionP.ready_init (made_alive h _ dn e he scope rdnAttr) hc
  obtain ⟨k1, k2, k3, k4⟩ := any_step h s hs.1 r.1 h1 r.2.1 h2 hs.2.1
  refine ⟨k1, alive_mirrors k3, fun l n hl hn => alive_mirrors (k4 n ?_)⟩
  rw [show (Api.act codec (fun d => d.1.1) peer s.env typeOf s.strict r.1 r.2.1 s.method).result = .ok (.objs l) from hl]
  exact List.mem_filterMap.2 ⟨some n, hn, rfl⟩

/-- **C100 (the object at hand, partial: careful calls).** After such a program the object at hand is of an entry and shows only what this entry has, or it is deleted and shows nothing. -/
theorem c100_mirror_partial (h : Setting dir contents peer lower norm mo under system at_ typeOf G) (s0 : S) (dn : Str) (hdn : at_ (contents s0) (norm dn) ≠ none) (scope : Scope) (rdnAttr : Option Str)
    (hist : List (Api.ObjStep V R)) (hc : CarefulOver peer contents at_ lower norm typeOf mo G ⟨Session.St.init, s0⟩ ⟨some dn, CIDict.empty, scope, rdnAttr⟩ hist) :
    let r := Api.runObj codec (fun d => d.1.1) peer typeOf ⟨Session.St.init, s0⟩ ⟨some dn, CIDict.empty, scope, rdnAttr⟩ hist
    Mirrors lower norm at_ (contents r.1.peer) r.2.1 := by
  intro r
  obtain ⟨e, he⟩ := Option.ne_none_iff_exists'.1 hdn
  exact alive_mirrors (history h hist ⟨Session.St.init, s0⟩ _ SessionP.ready_init (made_alive h _ dn e he scope rdnAttr) hc).2

/-- **C100 (validators).** A modification of the object that a validator of the connection rejects raises, is not sent, and leaves the object as it is. (A validator that raises `AttributeError` counts as one without
the method.) -/
theorem c100_validated (peer : Peer S) (env : Api.Env V R) (typeOf : TypeOf AVal) (strict : Bool) (l : Link Received.Decoded S) (o : Api.Obj) (dn : Str) (hdn : o.dn = some dn) (mods : List (Mod AVal)) (hne : mods ≠ [])
    (hv : ∃ v ∈ env.modValidators, ∃ e, e ≠ .attributeError ∧ v (dn, mods, some o.attrs) = .error e) :
    let t := Api.act codec (fun d => d.1.1) peer env typeOf strict l o (.modify mods)
    t.link = l ∧ t.obj = o ∧ ∃ e, t.result = .error e := by
  have key : ∀ vs : List ((Str × List (Mod AVal) × Option (AttrsDict AVal)) → Except Err Unit), (∃ v ∈ vs, ∃ e, e ≠ .attributeError ∧ v (dn, mods, some o.attrs) = .error e) →
      ∃ e, runValidation vs (dn, mods, some o.attrs) = .error e := by
    intro vs
    induction vs with
    | nil => rintro ⟨_, h, _⟩; cases h
    | cons v vs ih =>
      rintro ⟨w, hw, e, he, hwe⟩
      have hrest : ∀ x, v (dn, mods, some o.attrs) = x → (∀ e, e ≠ .attributeError → x ≠ .error e) → ∃ e, runValidation vs (dn, mods, some o.attrs) = .error e := by
        intro x hx hn
        rcases List.mem_cons.1 hw with rfl | hw
        · exact absurd (hx.symm.trans hwe) (hn e he)
        · exact ih ⟨w, hw, e, he, hwe⟩
      unfold runValidation
      split
      · rename_i hx
        exact hrest _ hx (fun _ _ h => by cases h)
      · rename_i hx
        exact hrest _ hx (fun e he h => by cases h; exact he rfl)
      · exact ⟨_, rfl⟩
  obtain ⟨e, he⟩ := key env.modValidators hv
  have hlen : mods.length > 0 := by
    cases mods with
    | nil => exact absurd rfl hne
    | cons _ _ => simp
  intro t
  simp only [t, Api.act, hdn]
  cases hu : env.conn.unbound with
  | true => simp [modifyObj, ObjEnv.modify, Api.Env.forObj, objModify, ldapModify, hlen, hu, Api.Turn.ofAfter, Except.map]
  | false => simp [modifyObj, ObjEnv.modify, Api.Env.forObj, objModify, ldapModify, hlen, hu, he, Api.Turn.ofAfter, Except.map]

/-- **C100 (after `delete`).** Whatever the other side does: once `delete` has returned, every further call on the object raises and writes nothing to the connection. -/
theorem c100_deleted (peer : Peer S) (typeOf : TypeOf AVal) (l : Link Received.Decoded S) (o : Api.Obj) (s : Api.ObjStep V R) (hs : s.method = .delete)
    (hok : (Api.act codec (fun d => d.1.1) peer s.env typeOf s.strict l o s.method).result = .ok .done) (rest : List (Api.ObjStep V R)) :
    let t := Api.act codec (fun d => d.1.1) peer s.env typeOf s.strict l o s.method
    let r := Api.runObj codec (fun d => d.1.1) peer typeOf l o (s :: rest)
    r.1 = t.link ∧ r.2.1 = t.obj ∧ t.obj.dn = none ∧ (∀ a, AttrsDict.getAttr s.env.lower t.obj.attrs a = []) ∧ ∀ res ∈ r.2.2.tail, ∃ x, res = .error x := by
  intro t r
  have hdead : t.obj.dn = none ∧ t.obj.attrs = CIDict.empty := by
    have hok' : t.result = .ok .done := hok
    simp only [t, hs] at hok' ⊢
    unfold Api.act at hok' ⊢
    cases hdn : o.dn with
    | none => rw [hdn] at hok'; cases hok'
    | some dn =>
      rw [hdn] at hok'
      dsimp only at hok' ⊢
      revert hok'
      rcases Api.call codec (fun d => d.1.1) peer s.env l (.delete dn) with ⟨l', x | ret⟩
      · exact fun h => by cases h
      · exact fun _ => ⟨rfl, rfl⟩
  have hch : Api.chosen t.obj s.follow t.result = t.obj := by
    rw [show t.result = .ok .done from hok]
    unfold Api.chosen
    split
    · rename_i hx; cases hx
    · rfl
  obtain ⟨k1, k2, k3⟩ := dead_run peer typeOf rest t.link t.obj hdead.1
  have hr : r = ((Api.runObj codec (fun d => d.1.1) peer typeOf t.link t.obj rest).1, (Api.runObj codec (fun d => d.1.1) peer typeOf t.link t.obj rest).2.1,
      t.result :: (Api.runObj codec (fun d => d.1.1) peer typeOf t.link t.obj rest).2.2) := by
    show (_, _, _) = _
    rw [show Api.chosen (Api.act codec (fun d => d.1.1) peer s.env typeOf s.strict l o s.method).obj s.follow (Api.act codec (fun d => d.1.1) peer s.env typeOf s.strict l o s.method).result = t.obj from hch]
  rw [hr]
  refine ⟨k1, k2, hdead.1, fun a => ?_, k3⟩
  rw [hdead.2]
  exact (EntP.view_empty (lower := s.env.lower) (G := fun _ _ => True) (fun _ => []) (fun _ _ _ => trivial)).2 a

end


/-! ## There are such directories -/
section
open WireP OverWire OverWireP ObjP
open Laurelin.Spec.OverWireS (Faithful readOp)
open Laurelin.Spec.DirectoryS (Directory Serves)
open Laurelin.Spec.EntriesS (Entries)
open Laurelin.Spec.PatternsS (Creates)
open Laurelin.Spec.ObjectS

/-- the name says which RDN and which parent -/
theorem ObjP.plain_unique {a v p b w q : Str} (h1 : PlainRdn a v) (h2 : PlainRdn b w) (h : below (avaRdn a v) p = below (avaRdn b w) q) : a = b ∧ v = w ∧ p = q := by
  have k1 := plain_dn h1 p
  have k2 := plain_dn h2 q
  rw [h, k2] at k1
  simp only [Option.some.injEq, Prod.mk.injEq] at k1
  have k3 := plain_ava h1
  rw [← k1.1, plain_ava h2] at k3
  simp only [Option.some.injEq, Prod.mk.injEq] at k3
  exact ⟨k3.1.symm, k3.2.symm, k1.2.symm⟩

theorem ObjP.ava_unique {a v b w : Str} (h1 : PlainRdn a v) (h2 : PlainRdn b w) (h : avaRdn a v = avaRdn b w) : a = b ∧ v = w := by
  have k3 := plain_ava h1
  rw [h, plain_ava h2] at k3
  simp only [Option.some.injEq, Prod.mk.injEq] at k3
  exact ⟨k3.1.symm, k3.2.symm⟩

/-- **C100 (there are such directories).** Whatever equality of values and normalization of DNs: there is a directory of entries by DN in which every modify request that RFC 4511 allows, every add request for a DN that
has no entry, every removal of an entry and every change of name of an entry to a name that has none (or is its own) is possible, and searches find any entries that there are (and by `c90_server_exists` there is a
server that has it). -/
theorem c100_directory_exists (lower norm : Str → Str) (mo : Str → Bytes → Bytes → Bool) (under : Str → Str → Prop) : ∃ dir : Directory (Str → Option (Spec.Entry Bytes)), Entries lower mo norm dir (fun d => d) ∧
    Creates lower norm (fun _ => False) dir (fun d => d) ∧ Tree lower mo norm under dir (fun d => d) ∧
    (∀ d dn cs e e', d (norm dn) = some e → srvModify lower mo e cs = .ok e' → ∃ d', dir.updated d (Spec.OverWireS.modifyOp dn cs) d') ∧
    (∀ d dn attrs, d (norm dn) = none → ∃ d', dir.updated d (Spec.PatternsS.addOp dn attrs) d') ∧
    (∀ d dn, d (norm dn) ≠ none → ∃ d', dir.updated d (.delRequest (utf8Enc dn)) d') ∧
    (∀ d a v parent a' v' clean sup, PlainRdn a v → PlainRdn a' v' → d (norm (below (avaRdn a v) parent)) ≠ none →
      (d (norm (below (avaRdn a' v') sup)) = none ∨ norm (below (avaRdn a' v') sup) = norm (below (avaRdn a v) parent)) →
      ∃ d', dir.updated d (.modDNRequest (utf8Enc (below (avaRdn a v) parent)) (utf8Enc (avaRdn a' v')) clean (some (utf8Enc sup))) d') ∧
    (∀ d base scope deref size time f attrs found, (∀ p ∈ found, ∃ e, d (norm p.1) = some e ∧ Faithful lower e attrs p.2) → (scope = 0 → ∀ p ∈ found, norm p.1 = norm base) →
      dir.finds d (.searchRequest (utf8Enc base) scope deref size time false f (attrs.map utf8Enc)) found) := by
  refine ⟨⟨fun d op d' =>
      (∃ dn cs e e', op = Spec.OverWireS.modifyOp dn cs ∧ d (norm dn) = some e ∧ srvModify lower mo e cs = .ok e' ∧ d' = fun x => if x = norm dn then some e' else d x) ∨
      (∃ dn attrs, op = Spec.PatternsS.addOp dn attrs ∧ d (norm dn) = none ∧ d' = fun x => if x = norm dn then some (PatP.made lower attrs) else d x) ∨
      (∃ dn, op = .delRequest (utf8Enc dn) ∧ d (norm dn) ≠ none ∧ d' = fun x => if x = norm dn then none else d x) ∨
      ∃ a v parent a' v' clean sup e, PlainRdn a v ∧ PlainRdn a' v' ∧ op = .modDNRequest (utf8Enc (below (avaRdn a v) parent)) (utf8Enc (avaRdn a' v')) clean (some (utf8Enc sup)) ∧
        d (norm (below (avaRdn a v) parent)) = some e ∧
        d' = fun x => if x = norm (below (avaRdn a' v') sup) then some (srvRename lower mo e a (utf8Enc v) a' (utf8Enc v') clean) else if x = norm (below (avaRdn a v) parent) then none else d x,
    fun d dn attr value => ∃ name a e, dn = utf8Enc name ∧ attr = utf8Enc a ∧ d (norm name) = some e ∧ (e (lower a)).any (fun x => mo a x value) = true,
    fun d op found => ∃ base scope deref size time f attrs, op = .searchRequest (utf8Enc base) scope deref size time false f (attrs.map utf8Enc) ∧
      (∀ p ∈ found, ∃ e, d (norm p.1) = some e ∧ Faithful lower e attrs p.2) ∧ (scope = 0 → ∀ p ∈ found, norm p.1 = norm base)⟩,
    ⟨?_, ?_⟩, ⟨?_, ?_⟩, ⟨?_, ?_, ?_⟩, ?_, ?_, ?_, ?_, ?_⟩
  · rintro d dn cs d' (⟨dn', cs', e, e', h1, h2, h3, rfl⟩ | ⟨dn', attrs, h1, _⟩ | ⟨dn', h1, _⟩ | ⟨_, _, _, _, _, _, _, _, _, _, h1, _⟩)
    · have hdn : dn = dn' := by
        simp only [Spec.OverWireS.modifyOp, Spec.Wire.Op.modifyRequest.injEq] at h1
        exact utf8_injective _ _ h1.1
      subst hdn
      have := modifyOp_inj _ _ _ h1
      subst this
      exact ⟨e, e', h2, h3, if_pos rfl, fun x hx => if_neg hx⟩
    · cases h1
    · cases h1
    · cases h1
  · rintro d dn deref size time f attrs found ⟨base, scope', deref', size', time', f', attrs', h1, h2, h3⟩ p hp
    simp only [readOp, Spec.Wire.Op.searchRequest.injEq] at h1
    have hdn := utf8_injective _ _ h1.1
    have ha := map_utf8_inj _ _ h1.2.2.2.2.2.2.2
    subst hdn ha
    obtain ⟨e, k1, k2⟩ := h2 p hp
    exact ⟨e, by rw [← h3 h1.2.1.symm p hp]; exact k1, k2⟩
  · rintro d dn attrs d' hn (⟨dn', cs', e, e', h1, _⟩ | ⟨dn', attrs', h1, h2, rfl⟩ | ⟨dn', h1, _⟩ | ⟨_, _, _, _, _, _, _, _, _, _, h1, _⟩)
    · cases h1
    · obtain ⟨rfl, rfl⟩ := PatP.addOp_inj _ _ _ _ h1
      exact ⟨h2, ⟨_, if_pos rfl, PatP.made_created lower attrs hn⟩, fun x hx => if_neg hx⟩
    · cases h1
    · cases h1
  · rintro d dn deref size time f attrs found ⟨base, scope', deref', size', time', f', attrs', h1, h2, h3⟩ p hp
    simp only [readOp, Spec.Wire.Op.searchRequest.injEq] at h1
    have hdn := utf8_injective _ _ h1.1
    subst hdn
    exact h3 h1.2.1.symm p hp
  · rintro d dn d' (⟨dn', cs', e, e', h1, _⟩ | ⟨dn', attrs', h1, _⟩ | ⟨dn', h1, h2, rfl⟩ | ⟨_, _, _, _, _, _, _, _, _, _, h1, _⟩)
    · cases h1
    · cases h1
    · simp only [Spec.Wire.Op.delRequest.injEq] at h1
      have := utf8_injective _ _ h1
      subst this
      exact ⟨h2, if_pos rfl, fun x hx => if_neg hx⟩
    · cases h1
  · rintro d a v parent a' v' clean sup d' hp hp' (⟨dn', cs', e, e', h1, _⟩ | ⟨dn', attrs', h1, _⟩ | ⟨dn', h1, _⟩ | ⟨b, w, q, b', w', clean', sup', e, hq, hq', h1, h2, rfl⟩)
    · cases h1
    · cases h1
    · cases h1
    · simp only [Spec.Wire.Op.modDNRequest.injEq, Option.some.injEq] at h1
      obtain ⟨h1, h3, rfl, h4⟩ := h1
      have h4 := utf8_injective _ _ h4
      obtain ⟨rfl, rfl, rfl⟩ := plain_unique hp hq (utf8_injective _ _ h1)
      obtain ⟨rfl, rfl⟩ := ava_unique hp' hq' (utf8_injective _ _ h3)
      subst h4
      refine ⟨e, h2, if_pos rfl, fun hne => ?_, fun x hx => ?_⟩
      · dsimp only
        rw [if_neg (fun h => hne h.symm), if_pos rfl]
      · dsimp only
        rw [if_neg (hx _ (.inr rfl)).1, if_neg (hx _ (.inl rfl)).1]
  · rintro d base scope deref size time f attrs found ⟨base', scope', deref', size', time', f', attrs', h1, h2, h3⟩ p hp
    simp only [Spec.Wire.Op.searchRequest.injEq] at h1
    have ha := map_utf8_inj _ _ h1.2.2.2.2.2.2.2
    subst ha
    exact h2 p hp
  · intro d dn cs e e' h1 h2
    exact ⟨_, .inl ⟨dn, cs, e, e', rfl, h1, h2, rfl⟩⟩
  · intro d dn attrs h
    exact ⟨_, .inr (.inl ⟨dn, attrs, rfl, h, rfl⟩)⟩
  · intro d dn h
    exact ⟨_, .inr (.inr (.inl ⟨dn, rfl, h, rfl⟩))⟩
  · intro d a v parent a' v' clean sup hp hp' h _
    obtain ⟨e, he⟩ := Option.ne_none_iff_exists'.1 h
    exact ⟨_, .inr (.inr (.inr ⟨a, v, parent, a', v', clean, sup, e, hp, hp', rfl, he, rfl⟩))⟩
  · intro d base scope deref size time f attrs found h1 h2
    exact ⟨base, scope, deref, size, time, f, attrs, rfl, h1, h2⟩

theorem ObjP.seen_good (lower : Str → Str) (e : Spec.Entry Bytes) : GoodEntry lower (fun _ v => Spec.Wire.Shows v.bytes v) (seen e) := by
  intro a x hx
  obtain ⟨b, _, rfl⟩ := List.mem_map.1 hx
  have := shows_map [b]
  rw [bytes_shown]
  cases this with
  | cons h _ => exact h

/-- the setting of the theorems: any such directory behind any server that has it, values compared as octets -/
theorem c100_setting_exists (lower norm : Str → Str) (under : Str → Str → Prop) : ∃ (dir : Directory (Str → Option (Spec.Entry Bytes))) (peer : Peer (Str → Option (Spec.Entry Bytes))),
    Setting dir (fun d => d) peer lower norm (fun _ a b => decide (a = b)) under (fun _ => False) (fun d => d) (fun _ => .ok (.default : AttrType AVal)) (fun _ v => Spec.Wire.Shows v.bytes v) := by
  obtain ⟨dir, h1, h2, h3, _⟩ := c100_directory_exists lower norm (fun _ a b => decide (a = b)) under
  obtain ⟨peer, h4, _⟩ := c90_server_exists dir
  exact ⟨dir, peer, h4, h1, h2, h3, octets_decide, ⟨fun _ _ _ => rfl, fun _ _ _ _ h => h⟩, fun _ _ h => h, fun d x e _ => seen_good lower e⟩

end

/-! ## A program: a child is made, renamed and deleted -/
namespace ObjP
section
open WireP OverWire OverWireP EntP
open Laurelin.Spec.OverWireS (Faithful readOp)
open Laurelin.Spec.DirectoryS (Directory Serves)
open Laurelin.Spec.EntriesS (Entries)
open Laurelin.Spec.PatternsS (Creates Created ShowsValues)
open Laurelin.Spec.ObjectS

/-- the directory has the entry `o` and, in states 1 and 2, one more, `cn=a,o` or `cn=b,o`; searches find nothing -/
def lifeDir : Directory Nat where
  updated s op s' := (s = 0 ∧ op = Spec.PatternsS.addOp (str "cn=a,o") [(str "cn", [[97]])] ∧ s' = 1) ∨
    (s = 1 ∧ op = .modDNRequest (utf8Enc (str "cn=a,o")) (utf8Enc (str "cn=b")) true (some (utf8Enc (str "o"))) ∧ s' = 2) ∨ (s = 2 ∧ op = .delRequest (utf8Enc (str "cn=b,o")) ∧ s' = 3)
  holds _ _ _ _ := False
  finds _ _ found := found = []

def lifeAt : Nat → Str → Option (Spec.Entry Bytes) := fun s x =>
  if x = str "o" then some (ent []) else if s = 1 ∧ x = str "cn=a,o" then some (ent [[97]]) else if s = 2 ∧ x = str "cn=b,o" then some (ent [[98]]) else none

theorem life_entries : Entries lc eqb (fun x => x) lifeDir lifeAt := by
  refine ⟨?_, ?_⟩
  · rintro d dn cs d' (⟨_, h1, _⟩ | ⟨_, h1, _⟩ | ⟨_, h1, _⟩) <;> cases h1
  · rintro d dn deref size time f attrs found rfl p hp
    cases hp

theorem life_creates : Creates lc (fun x => x) (fun _ => False) lifeDir lifeAt := by
  refine ⟨?_, ?_⟩
  · rintro d dn attrs d' _ (⟨rfl, h1, rfl⟩ | ⟨_, h1, _⟩ | ⟨_, h1, _⟩)
    · obtain ⟨rfl, rfl⟩ := PatP.addOp_inj _ _ _ _ h1
      refine ⟨by decide, ⟨ent [[97]], rfl, fun a ha => ?_, fun x hx _ => ?_⟩, fun x hx => ?_⟩
      · simp only [List.mem_singleton] at ha
        subst ha
        decide
      · have : lc (str "cn") ≠ x := hx (str "cn", [[97]]) (by simp)
        simp only [ent]
        exact if_neg (fun h => this (by rw [h]; decide))
      · simp only [lifeAt]
        by_cases ho : x = str "o"
        · simp [ho]
        · simp [ho, hx]
    · cases h1
    · cases h1
  · rintro d dn deref size time f attrs found rfl p hp
    cases hp

theorem plain_cn (v : Str) (h1 : dnEscape v = v) (h2 : ',' ∉ v) : PlainRdn (str "cn") v := ⟨by decide, h1, h2⟩

theorem life_rename : srvRename lc eqb (ent [[97]]) (str "cn") [97] (str "cn") [98] true = ent [[98]] := by
  funext x
  have h1 : lc (str "cn") = str "cn" := by decide
  simp only [srvRename, if_true, h1]
  have h2 : (Entry.put lc (ent [[97]]) (str "cn") (dropFirst (fun x => eqb (str "cn") x [97]) (ent [[97]] (str "cn")))) (str "cn") = [] := by decide
  rw [h2]
  simp only [List.any_nil, Bool.false_eq_true, List.nil_append]
  by_cases hx : x = str "cn"
  · subst hx
    decide
  · have h3 : ∀ (e : Spec.Entry Bytes) vs, (Entry.put lc e (str "cn") vs) x = e x := fun e vs => by
      simp only [Entry.put, h1]
      exact if_neg hx
    show Entry.put lc (Entry.put lc (ent [[97]]) (str "cn") _) (str "cn") [[98]] x = _
    rw [h3, h3]
    simp only [ent, if_neg hx]

theorem life_tree : Tree lc eqb (fun x => x) (fun _ _ => False) lifeDir lifeAt := by
  refine ⟨?_, ?_, ?_⟩
  · rintro d dn d' (⟨_, h1, _⟩ | ⟨_, h1, _⟩ | ⟨rfl, h1, rfl⟩)
    · cases h1
    · cases h1
    · simp only [Spec.Wire.Op.delRequest.injEq] at h1
      have := utf8_injective _ _ h1
      subst this
      refine ⟨by simp [lifeAt], by simp only [lifeAt]; rw [if_neg (by decide)]; simp, fun x hx => ?_⟩
      simp only [lifeAt]
      by_cases ho : x = str "o"
      · simp [ho]
      · simp [ho, hx]
  · rintro d a v parent a' v' clean sup d' hp hp' (⟨_, h1, _⟩ | ⟨rfl, h1, rfl⟩ | ⟨_, h1, _⟩)
    · cases h1
    · simp only [Spec.Wire.Op.modDNRequest.injEq, Option.some.injEq] at h1
      obtain ⟨h1, h3, rfl, h4⟩ := h1
      have h4 := utf8_injective _ _ h4
      obtain ⟨rfl, rfl, rfl⟩ := plain_unique (b := str "cn") (w := str "a") (q := str "o") hp (plain_cn (str "a") (by decide) (by decide)) (by rw [utf8_injective _ _ h1]; decide)
      obtain ⟨rfl, rfl⟩ := ava_unique (b := str "cn") (w := str "b") hp' (plain_cn (str "b") (by decide) (by decide)) (by rw [utf8_injective _ _ h3]; decide)
      subst h4
      refine ⟨ent [[97]], by rfl, ?_, fun _ => by rfl, fun x hx => ?_⟩
      · rw [show utf8Enc (str "a") = [97] by decide, show utf8Enc (str "b") = [98] by decide, life_rename]
        rfl
      · have h5 := (hx _ (.inl rfl)).1
        have h6 := (hx _ (.inr rfl)).1
        have h7 : x ≠ str "cn=a,o" := h5
        have h8 : x ≠ str "cn=b,o" := h6
        simp [lifeAt, h7, h8]
    · cases h1
  · rintro d base scope deref size time f attrs found rfl p hp
    cases hp

def lifeAdd : Bytes := [48, 26, 2, 1, 1, 104, 21, 4, 6, 99, 110, 61, 97, 44, 111, 48, 11, 48, 9, 4, 2, 99, 110, 49, 3, 4, 1, 97]
def lifeMod : Bytes := [48, 25, 2, 1, 2, 108, 20, 4, 6, 99, 110, 61, 97, 44, 111, 4, 4, 99, 110, 61, 98, 1, 1, 1, 128, 1, 111]
def lifeDel : Bytes := [48, 11, 2, 1, 3, 74, 6, 99, 110, 61, 98, 44, 111]
def lifeOut (at0 : Nat) (g mid : UInt8) (s : Nat) : Nat × List Bytes := if s = at0 then (at0 + 1, [[48, 12, 2, 1, mid], [g, 7, 10, 1, 0, 4, 0, 4, 0]]) else (s, [[48, 12, 2, 1, mid, g, 7, 10, 1, 53, 4, 0, 4, 0]])

noncomputable def lifePeer : Peer Nat := fun s bs => if bs = lifeAdd then lifeOut 0 105 1 s else (fun s bs => if bs = lifeMod then lifeOut 1 109 2 s else
  (fun s bs => if bs = lifeDel then lifeOut 2 107 3 s else Classical.choose (c90_server_exists lifeDir) s bs) s bs) s bs

theorem life_serves : Serves lifeDir (fun d => d) lifePeer := by
  have h0 := (Classical.choose_spec (c90_server_exists lifeDir)).1
  have ha := WireR.has_enc ⟨1, .addRequest (utf8Enc (str "cn=a,o")) [⟨utf8Enc (str "cn"), [[97]]⟩], none⟩ lifeAdd (by decide +kernel)
  have hm := WireR.has_enc ⟨2, .modDNRequest (utf8Enc (str "cn=a,o")) (utf8Enc (str "cn=b")) true (some (utf8Enc (str "o"))), none⟩ lifeMod (by decide +kernel)
  have hd := WireR.has_enc ⟨3, .delRequest (utf8Enc (str "cn=b,o")), none⟩ lifeDel (by decide +kernel)
  refine DirP.override (DirP.override (DirP.override h0 _ lifeDel hd.1 hd.2 (lifeOut 2 107 3) ?_ nofun (fun _ h => h.elim)) _ lifeMod hm.1 hm.2 (lifeOut 1 109 2) ?_ nofun (fun _ h => h.elim)) _ lifeAdd ha.1 ha.2 (lifeOut 0 105 1) ?_
    nofun (fun _ h => h.elim)
  · intro s resp hresp
    cases hresp
    by_cases hs : s = 2
    · subst hs
      have hr := WireR.has_enc ⟨3, .delResponse (said 0), none⟩ [48, 12, 2, 1, 3, 107, 7, 10, 1, 0, 4, 0, 4, 0] (by decide +kernel)
      exact ⟨said 0, ⟨_, .cons hr .nil, by decide, by decide⟩, .inl ⟨rfl, .inr (.inr ⟨rfl, rfl, rfl⟩)⟩⟩
    · simp only [lifeOut, if_neg hs]
      have hr := WireR.has_enc ⟨3, .delResponse (said 53), none⟩ [48, 12, 2, 1, 3, 107, 7, 10, 1, 53, 4, 0, 4, 0] (by decide +kernel)
      exact ⟨said 53, ⟨_, .cons hr .nil, by decide, by decide⟩, .inr ⟨by decide, trivial⟩⟩
  · intro s resp hresp
    cases hresp
    by_cases hs : s = 1
    · subst hs
      have hr := WireR.has_enc ⟨2, .modDNResponse (said 0), none⟩ [48, 12, 2, 1, 2, 109, 7, 10, 1, 0, 4, 0, 4, 0] (by decide +kernel)
      exact ⟨said 0, ⟨_, .cons hr .nil, by decide, by decide⟩, .inl ⟨rfl, .inr (.inl ⟨rfl, rfl, rfl⟩)⟩⟩
    · simp only [lifeOut, if_neg hs]
      have hr := WireR.has_enc ⟨2, .modDNResponse (said 53), none⟩ [48, 12, 2, 1, 2, 109, 7, 10, 1, 53, 4, 0, 4, 0] (by decide +kernel)
      exact ⟨said 53, ⟨_, .cons hr .nil, by decide, by decide⟩, .inr ⟨by decide, trivial⟩⟩
  · intro s resp hresp
    cases hresp
    by_cases hs : s = 0
    · subst hs
      have hr := WireR.has_enc ⟨1, .addResponse (said 0), none⟩ [48, 12, 2, 1, 1, 105, 7, 10, 1, 0, 4, 0, 4, 0] (by decide +kernel)
      exact ⟨said 0, ⟨_, .cons hr .nil, by decide, by decide⟩, .inl ⟨rfl, .inl ⟨rfl, rfl, rfl⟩⟩⟩
    · simp only [lifeOut, if_neg hs]
      have hr := WireR.has_enc ⟨1, .addResponse (said 53), none⟩ [48, 12, 2, 1, 1, 105, 7, 10, 1, 53, 4, 0, 4, 0] (by decide +kernel)
      exact ⟨said 53, ⟨_, .cons hr .nil, by decide, by decide⟩, .inr ⟨by decide, trivial⟩⟩

theorem life_setting : Setting lifeDir (fun d => d) lifePeer lc (fun x => x) eqb (fun _ _ => False) (fun _ => False) lifeAt (fun _ => .ok (.default : AttrType AVal)) (fun _ v => Spec.Wire.Shows v.bytes v) :=
  ⟨life_serves, life_entries, life_creates, life_tree, octets_decide, ⟨fun _ _ _ => rfl, fun _ _ _ _ h => h⟩, fun _ _ h => h, fun _ _ e _ => seen_good lc e⟩

/-- `child = obj.add_child('a', {'cn': ['a']}); child.rename('cn=b'); child.delete()` where `obj` has the DN `o` and `rdn_attr='cn'` -/
def lifeHist : List (Api.ObjStep Unit Unit) :=
  [⟨DirP.sampleEnv, false, .addChild (str "a") [(str "cn", [.text (str "a")])], some 0⟩, ⟨DirP.sampleEnv, false, .modDn (str "cn=b") true none, none⟩, ⟨DirP.sampleEnv, false, .delete, none⟩]

def lifeObj : Api.Obj := ⟨some (str "o"), CIDict.empty, .sub, some (str "cn")⟩

noncomputable def lifeRun (k : Nat) := Api.runObj codec (fun d => d.1.1) lifePeer (fun _ => .ok (.default : AttrType AVal)) ⟨Session.St.init, 0⟩ lifeObj (lifeHist.take k)

def lifeShows (r : Link Received.Decoded Nat × Api.Obj × List (Except Err Api.Returned)) : Nat × Option Str × List AVal × List Bool :=
  (r.1.peer, r.2.1.dn, AttrsDict.getAttr lc r.2.1.attrs (str "CN"), r.2.2.map (fun x => match x with | .ok _ => true | .error _ => false))

set_option maxRecDepth 100000 in
theorem life_run1 : lifeShows (lifeRun 1) = (1, some (str "cn=a,o"), [.text (str "a")], [true]) := by decide +kernel

set_option maxRecDepth 100000 in
theorem life_run2 : lifeShows (lifeRun 2) = (2, some (str "cn=b,o"), [.text (str "b")], [true, true]) := by decide +kernel

set_option maxRecDepth 100000 in
theorem life_run3 : lifeShows (lifeRun 3) = (3, none, [], [true, true, true]) := by decide +kernel

theorem life_careful : CarefulOver lifePeer (fun d => d) lifeAt lc (fun x => x) (fun _ => .ok (.default : AttrType AVal)) eqb (fun _ v => Spec.Wire.Shows v.bytes v) ⟨Session.St.init, 0⟩ lifeObj lifeHist := by
  refine ⟨rfl, fun dn e _ _ => ⟨by decide, fun kv hkv v hv => ?_⟩, rfl, fun dn e hdn he => ?_, rfl, fun _ _ _ _ => trivial, trivial⟩
  · simp only [List.mem_singleton] at hkv
    subst hkv
    simp only [List.mem_singleton] at hv
    subst hv
    rfl
  · have h1 := life_run1
    simp only [lifeShows, Prod.mk.injEq] at h1
    obtain ⟨k1, k2, k3, _⟩ := h1
    rw [show (lifeRun 1).2.1.dn = some dn from hdn] at k2
    simp only [Option.some.injEq] at k2
    subst k2
    have he' : lifeAt (lifeRun 1).1.peer (str "cn=a,o") = some e := he
    rw [k1] at he'
    have he'' : some (ent [[97]]) = some e := he'
    simp only [Option.some.injEq] at he''
    subst he''
    refine ⟨str "cn", str "a", str "o", str "cn", str "b", plain_cn _ (by decide) (by decide), plain_cn _ (by decide) (by decide), by decide, by decide, rfl, rfl, ?_⟩
    have k4 : AttrsDict.getAttr lc (lifeRun 1).2.1.attrs (str "cn") = [.text (str "a")] := by
      rw [← k3]
      exact PatP.getAttr_fold _ _ _ (by decide)
    show Pairwise2 _ _ (AttrsDict.getAttr lc (lifeRun 1).2.1.attrs (str "cn"))
    rw [k4]
    exact .cons (by rfl) .nil

end
end ObjP

section
open WireP OverWire OverWireP ObjP EntP
open Laurelin.Spec.ObjectS

/-- the program meets the hypotheses: the child made by its first call mirrors its entry to the end -/
example : Mirrors lc (fun x => x) lifeAt (lifeRun 3).1.peer (lifeRun 3).2.1 := c100_mirror_partial life_setting 0 (str "o") (by decide) .sub (some (str "cn")) lifeHist life_careful

/-- its last call -/
example : (lifeRun 3).1.peer = 3 ∧ (lifeRun 3).2.1.dn = none := by
  have h1 := life_run3
  simp only [lifeShows, Prod.mk.injEq] at h1
  exact ⟨h1.1, h1.2.1⟩

/-- its second call has renamed the entry and the object -/
example : (lifeRun 2).2.1.dn = some (str "cn=b,o") ∧ lifeAt (lifeRun 2).1.peer (str "cn=b,o") = some (ent [[98]]) ∧ lifeAt (lifeRun 2).1.peer (str "cn=a,o") = none ∧
    AttrsDict.getAttr lc (lifeRun 2).2.1.attrs (str "CN") = [.text (str "b")] := by
  have h1 := life_run2
  simp only [lifeShows, Prod.mk.injEq] at h1
  rw [h1.1]
  exact ⟨h1.2.1, rfl, rfl, h1.2.2.1⟩

/-- its second call meets the hypotheses of the claim about one call -/
example : ∃ s : Api.ObjStep Unit Unit, s.method = .modDn (str "cn=b") true none ∧
    let t := Api.act codec (fun d => d.1.1) lifePeer s.env (fun _ => .ok (.default : AttrType AVal)) s.strict (lifeRun 1).1 (lifeRun 1).2.1 s.method
    Means (fun x => x) eqb (fun _ _ => False) (fun _ => False) lifeDir lifeAt s.env (lifeRun 1).1.peer (lifeRun 1).2.1 s.method t.result t.obj t.link.peer :=
  ⟨⟨DirP.sampleEnv, false, .modDn (str "cn=b") true none, none⟩, rfl,
    (c100_call_partial life_setting 0 (str "o") (by decide) .sub (some (str "cn")) (lifeHist.take 1) ⟨life_careful.1, life_careful.2.1, trivial⟩ _ ⟨life_careful.2.2.1, life_careful.2.2.2.1, trivial⟩).1⟩

/-- a connection one of whose validators rejects everything -/
noncomputable def rejectRun :=
  Api.act codec (fun d => d.1.1) lifePeer { DirP.sampleEnv with modValidators := [fun _ => .error .attributeError, fun _ => .error .ldapValidation] } (fun _ => .ok (.default : AttrType AVal)) false ⟨Session.St.init, 0⟩
    lifeObj (.modify [⟨.add, str "cn", .list [.text (str "x")]⟩])

example : rejectRun.link = ⟨Session.St.init, 0⟩ ∧ rejectRun.obj = lifeObj ∧ ∃ e, rejectRun.result = .error e :=
  c100_validated lifePeer _ _ false _ lifeObj (str "o") rfl _ (by simp) ⟨_, .tail _ (.head _), .ldapValidation, by decide, rfl⟩

/-- a deleted object: nothing is sent any more -/
example : (Api.act codec (fun d => d.1.1) lifePeer DirP.sampleEnv (fun _ => .ok (.default : AttrType AVal)) false (lifeRun 2).1 (lifeRun 2).2.1 .delete).result.map (fun _ => ()) = .ok () := by
  decide +kernel

namespace ObjP
/-- a server that keeps what it is sent and says that all went well -/
def keepPeer : Peer (List Bytes) := fun s bs => (s ++ [bs], [[48, 12, 2, 1, 1, 109, 7, 10, 1, 0, 4, 0, 4, 0]])
/-- the object of the entry whose RDN is `cn=a\\,b`, below `o` -/
def commaObj : Api.Obj := ⟨some (str "cn=a\\,b,o"), CIDict.empty, .sub, none⟩
def commaRun (m : Api.Method) : List Bytes × Option Str × Bool :=
  let t := Api.act codec (fun d => d.1.1) keepPeer DirP.sampleEnv (fun _ => .ok (.default : AttrType AVal)) false ⟨Session.St.init, []⟩ commaObj m
  (t.link.peer, t.obj.dn, match t.result with | .ok _ => true | .error _ => false)
end ObjP

set_option maxRecDepth 100000 in
/-- Without the restriction to RDNs that need no escaping the claim is false: renaming the entry `cn=a\\,b` below `o` to `cn=c` asks the server to move it below `b,o`, and names the object so. -/
theorem c100_escaped_comma_witness : Spec.IsDn (str "cn=a\\,b,o") [str "cn=a\\,b", str "o"] ∧
    commaRun (.modDn (str "cn=c") true none) = ([[48, 30, 2, 1, 1, 108, 25, 4, 9, 99, 110, 61, 97, 92, 44, 98, 44, 111, 4, 4, 99, 110, 61, 99, 1, 1, 1, 128, 3, 98, 44, 111]], some (str "cn=c,b,o"), true) ∧
    (⟨1, .modDNRequest (utf8Enc (str "cn=a\\,b,o")) (utf8Enc (str "cn=c")) true (some (utf8Enc (str "b,o"))), none⟩ : Spec.Wire.Message).enc Spec.Wire.x690
      [48, 30, 2, 1, 1, 108, 25, 4, 9, 99, 110, 61, 97, 92, 44, 98, 44, 111, 4, 4, 99, 110, 61, 99, 1, 1, 1, 128, 3, 98, 44, 111] := by
  refine ⟨⟨by decide, by decide⟩, by decide +kernel, (WireR.has_enc _ _ (by decide +kernel)).2⟩

end
end Laurelin.Props
