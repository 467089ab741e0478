import Verif.Props.Entries
import Verif.Spec.Patterns
/-!
# C92 `add_or_mod_add_if_exists`, `add_or_mod_replace_if_exists`, `add_if_not_exists` against any server
-/
set_option linter.unusedSectionVars false
namespace Laurelin.Props
open Laurelin Codec Asn1 Rfc4511 Spec
namespace PatP
open Laurelin.Wire WireP WireR OverWire OverWireP Spec.OverWireS Spec.DirectoryS Spec.EntriesS Spec.PatternsS EntP
section
variable {V R S D : Type} {dir : Directory D} {contents : S → D} {peer : Peer S} {lower norm : Str → Str} {mo : Str → Bytes → Bytes → Bool} {at_ : D → Str → Option (Spec.Entry Bytes)}

/-- what modify requests and reads for this DN preserve -/
structure Keeps (dn : Str) (Q : S → Prop) (peer : Peer S) : Prop where
  modify : ∀ s bs mid cs ctrls, Spec.Wire.Message.Valid ⟨mid, Spec.OverWireS.modifyOp dn cs, ctrls⟩ → Spec.Wire.Message.enc Spec.Wire.x690 ⟨mid, Spec.OverWireS.modifyOp dn cs, ctrls⟩ bs → Q s → Q (peer s bs).1
  read : ∀ s bs mid deref size time f attrs ctrls, Spec.Wire.Message.Valid ⟨mid, readOp dn deref size time f attrs, ctrls⟩ →
    Spec.Wire.Message.enc Spec.Wire.x690 ⟨mid, readOp dn deref size time f attrs, ctrls⟩ bs → Q s → Q (peer s bs).1

theorem send_keeps {Q : S → Prop} (env : OverWire.Env V R) (l : Link Received.Decoded S) (rq : ModRequest AVal) (hk : Keeps rq.dn Q peer) (h : Q l.peer) :
    Q (sendModify codec (fun d => d.1.1) peer env l rq).1.peer := by
  simp only [sendModify]
  cases hsend : send l.st.next (Call.modify rq).op env.ctrls with
  | none => exact h
  | some bs =>
    obtain ⟨o, ho, hv, _, henc⟩ := c79_sent _ _ _ _ hsend
    cases ho
    have hop : Spec.Wire.Op.modifyRequest (utf8Enc rq.dn) (rq.changes.map (fun c => (Spec.Wire.modNumber c.op, Spec.Wire.ofAttr (c.attr, c.vals)))) =
        Spec.OverWireS.modifyOp rq.dn (rq.changes.map toBytes) := by
      simp only [Spec.OverWireS.modifyOp, List.map_map]
      rfl
    rw [hop] at hv henc
    exact hk.modify _ _ _ _ _ hv henc h

theorem fetch_keeps {Q : S → Prop} (env : OverWire.Env V R) (l : Link Received.Decoded S) (attrs : List Str) (hk : Keeps env.obj.dn Q peer) (h : Q l.peer) :
    Q (fetch codec (fun d => d.1.1) peer env l attrs).1.peer := by
  simp only [fetch]
  cases hs : ldapSearch { env.conn with unbound := env.obj.unbound } { base := env.obj.dn, scope := .base, attrs := some attrs, limit := 2 } with
  | error e => exact h
  | ok sent =>
    simp only []
    cases hsend : send l.st.next (Call.search sent.req).op sent.ctrls with
    | none => exact h
    | some bs =>
      obtain ⟨f, hreq⟩ := read_request _ _ _ _ hs
      obtain ⟨o, ho, hv, _, henc⟩ := c79_sent _ _ _ _ hsend
      rw [hreq] at ho
      cases ho
      exact hk.read _ _ _ _ _ _ _ attrs _ hv henc h

theorem sent_dn (env : ObjEnv AVal) (typeOf : TypeOf AVal) (server : ModRequest AVal → Except Err Unit) (d : AttrsDict AVal) (mods : List (Mod AVal)) :
    ∀ rq ∈ (env.modify lower typeOf server d mods).2.sent, rq.dn = env.dn := by
  have key : ∀ rq ∈ (ldapModify env.unbound env.validators env.opts env.ctrls server env.dn mods (some d)).sent, rq.dn = env.dn := by
    intro rq hrq
    simp only [ldapModify] at hrq
    repeat' (split at hrq)
    all_goals first
      | (rw [List.mem_singleton.1 hrq])
      | (exact absurd hrq (by simp))
  simp only [ObjEnv.modify, objModify]
  split
  · exact key
  · exact key

theorem modifyObj_keeps {Q : S → Prop} (env : OverWire.Env V R) (typeOf : TypeOf AVal) (l : Link Received.Decoded S) (d : AttrsDict AVal) (mods : List (Mod AVal)) (hk : Keeps env.obj.dn Q peer) (h : Q l.peer) :
    Q (modifyObj codec (fun d => d.1.1) peer env lower typeOf l d mods).link.peer := by
  simp only [modifyObj]
  have hd := sent_dn (lower := lower) env.obj typeOf (fun rq => (sendModify codec (fun d => d.1.1) peer env l rq).2) d mods
  generalize (env.obj.modify lower typeOf (fun rq => (sendModify codec (fun d => d.1.1) peer env l rq).2) d mods).2.sent = sent at hd
  induction sent generalizing l with
  | nil => exact h
  | cons rq sent ih =>
    simp only [List.foldl_cons]
    exact ih _ (send_keeps env l rq (by rw [hd rq (by simp)]; exact hk) h) (fun x hx => hd x (by simp [hx]))

theorem prepare_keeps {Q : S → Prop} (env : OverWire.Env V R) (l : Link Received.Decoded S) (d : AttrsDict AVal) (attrs : List Str) (hk : Keeps env.obj.dn Q peer) (h : Q l.peer) :
    Q (prepare codec (fun d => d.1.1) peer env lower l d attrs).1.peer := by
  simp only [prepare, OverWire.refreshMissing, OverWire.refresh]
  split
  · exact h
  · split
    · have hq := fetch_keeps env l (attrs.filter (fun a => !AttrsDict.has lower d a)) hk h
      revert hq
      rcases fetch codec (fun d => d.1.1) peer env l (attrs.filter (fun a => !AttrsDict.has lower d a)) with ⟨l', e | got⟩
      · exact fun hq => hq
      · exact fun hq => hq
    · exact h

theorem addAttrs_keeps {Q : S → Prop} (env : OverWire.Env V R) (typeOf : TypeOf AVal) (l : Link Received.Decoded S) (d : AttrsDict AVal) (new : List (Str × List AVal)) (hk : Keeps env.obj.dn Q peer) (h : Q l.peer) :
    Q (addAttrs codec (fun d => d.1.1) peer env lower typeOf l d new).link.peer := by
  simp only [addAttrs]
  have hq := prepare_keeps (lower := lower) env l d (new.map Prod.fst) hk h
  revert hq
  rcases prepare codec (fun d => d.1.1) peer env lower l d (new.map Prod.fst) with ⟨l', e | d'⟩
  · exact fun hq => hq
  · intro hq
    simp only []
    cases addModlist lower typeOf d' (new.map (fun kv => (kv.1, Vals.list kv.2))) with
    | error e => exact hq
    | ok mods => exact modifyObj_keeps env typeOf l' d' mods hk hq

theorem replaceAttrs_keeps {Q : S → Prop} (env : OverWire.Env V R) (typeOf : TypeOf AVal) (l : Link Received.Decoded S) (d : AttrsDict AVal) (new : List (Str × Vals AVal)) (hk : Keeps env.obj.dn Q peer) (h : Q l.peer) :
    Q (replaceAttrs codec (fun d => d.1.1) peer env lower typeOf l d new).link.peer := by
  simp only [replaceAttrs]
  cases modlist .replace (new.map (fun kv => (kv.1, RawVals.vals kv.2))) with
  | error e => exact h
  | ok mods => exact modifyObj_keeps env typeOf l d mods hk h

/-! ## The entry of the directory -/

/-- the values of the entry with this DN -/
def entryOf (contents : S → D) (at_ : D → Str → Option (Spec.Entry Bytes)) (x : Str) (s : S) : Spec.Entry Bytes := (at_ (contents s) x).getD (fun _ => [])

theorem conforms (hs : Serves dir contents peer) (hE : Entries lower mo norm dir at_) (dn : Str) : Conforms lower mo dn (entryOf contents at_ (norm dn)) peer := by
  constructor
  · intro s bs mid cs ctrls hv he
    obtain ⟨r, h1, h2⟩ := hs.update s bs mid _ _ ctrls rfl hv he
    refine ⟨r, h1, ?_⟩
    rcases h2 with ⟨h2, h3⟩ | ⟨h2, h3⟩
    · obtain ⟨e, e', k1, k2, k3, _⟩ := hE.modify _ _ _ _ h3
      left
      refine ⟨h2, ?_⟩
      simp only [entryOf, k1, k3, Option.getD_some]
      exact k2
    · right
      exact ⟨h2, by simp only [entryOf, h3]⟩
  · intro s bs mid deref size time f attrs ctrls hv he
    obtain ⟨h1, found, r, h2, h3, h4, h5, h6, h7⟩ := hs.search s bs mid (readOp dn deref size time f attrs) ctrls trivial hv he
    refine ⟨by simp only [entryOf, h1], found, r, h2, h3, h4, h5, fun hc p hp => ?_⟩
    rcases hc with hc | hc
    · obtain ⟨e, k1, k2⟩ := hE.read _ _ _ _ _ _ _ _ (h6 hc) p hp
      simp only [entryOf, k1, Option.getD_some]
      exact k2
    · rw [(h7 hc).1] at hp
      cases hp

/-- other entries stay, and the entry stays an entry -/
theorem keeps (hs : Serves dir contents peer) (hE : Entries lower mo norm dir at_) (dn : Str) (d : D) :
    Keeps dn (fun s => (∀ x, x ≠ norm dn → at_ (contents s) x = at_ d x) ∧ (at_ (contents s) (norm dn)).isSome = true) peer := by
  constructor
  · intro s bs mid cs ctrls hv he hq
    obtain ⟨r, _, h2⟩ := hs.update s bs mid _ _ ctrls rfl hv he
    rcases h2 with ⟨_, h3⟩ | ⟨_, h3⟩
    · obtain ⟨e, e', k1, k2, k3, k4⟩ := hE.modify _ _ _ _ h3
      exact ⟨fun x hx => by rw [k4 x hx, hq.1 x hx], by rw [k3]; rfl⟩
    · rw [h3]
      exact hq
  · intro s bs mid deref size time f attrs ctrls hv he hq
    obtain ⟨h1, _⟩ := hs.search s bs mid (readOp dn deref size time f attrs) ctrls trivial hv he
    rw [h1]
    exact hq

theorem shows_agrees (e : Spec.Entry Bytes) (d : AttrsDict AVal) (a : Str) (h : AttrsDict.getAttr lower d a = seen e (lower a)) : ShowsValues lower e d a := by
  simp only [ShowsValues, h]
  exact shows_map _

theorem shows_given (l : List AVal) (h : ∀ v ∈ l, Spec.Wire.Shows v.bytes v) : Pairwise2 Spec.Wire.Shows (l.map AVal.bytes) l := by
  induction l with
  | nil => exact .nil
  | cons v l ih => exact .cons (h v (by simp)) (ih (fun x hx => h x (by simp [hx])))

theorem getAttr_fold (d : AttrsDict AVal) (a b : Str) (h : lower a = lower b) : AttrsDict.getAttr lower d a = AttrsDict.getAttr lower d b := by
  unfold AttrsDict.getAttr CIDict.get CIDict.getItem
  rw [h]

/-- `add` as part of these calls -/
theorem addNew_step {G : Str → AVal → Prop} {system : Str → Prop} (hG : ∀ a v, G a v → Spec.Wire.Shows v.bytes v) (hs : Serves dir contents peer) (env : Api.Env V R) (hN : Creates env.lower norm system dir at_)
    (l : Link Received.Decoded S) (hr : SessionP.Ready l.st) (dn : Str) (attrs : List (Str × List AVal)) (hn : (attrs.map (fun kv => env.lower kv.1)).Nodup) (hv : ∀ kv ∈ attrs, ∀ v ∈ kv.2, G kv.1 v)
    (P : Spec.Entry Bytes → Spec.Entry Bytes → Prop) (named : List Str) (hna : ∀ a ∈ named, a ∈ attrs.map Prod.fst) :
    let r := Api.addNew codec (fun d => d.1.1) peer env l dn attrs
    PatternEffect env.lower norm system at_ (contents l.peer) dn attrs P named r.2 (contents r.1.peer) ∧
    (r.2 ≠ .error .tagError → r.2 ≠ .error .typeError → SessionP.Ready r.1.st) := by
  intro r
  simp only [r, Api.addNew]
  obtain ⟨h1, h2⟩ := c90_call hs env.plain l hr (.add dn attrs)
  refine ⟨?_, h2⟩
  revert h1
  rcases Api.call codec (fun d => d.1.1) peer env.plain l (.add dn attrs) with ⟨l', e | ret⟩
  · intro h1 x
    show at_ (contents l'.peer) x = _
    rw [show contents l'.peer = contents l.peer from h1]
  · rintro ⟨h1, obj, h3, h4⟩
    obtain ⟨h4, h5⟩ := h4 hn
    have hop : Spec.Wire.Op.addRequest (utf8Enc dn) (attrs.map Spec.Wire.ofAttr) = Spec.PatternsS.addOp dn (attrs.map (fun kv => (kv.1, kv.2.map AVal.bytes))) := by
      simp only [Spec.PatternsS.addOp, List.map_map]
      rfl
    rw [hop] at h1
    obtain ⟨k1, ⟨e', k2, k3⟩, k4⟩ := hN.add _ _ _ _ (by rw [List.map_map]; exact hn) h1
    have hshow : ∀ kv ∈ attrs, ∀ a, env.lower kv.1 = env.lower a → ShowsValues env.lower e' obj a := by
      intro kv hkv a ha
      have hg : AttrsDict.getAttr env.lower obj a = kv.2 := by
        rw [← h4 kv hkv]
        exact getAttr_fold _ _ _ ha.symm
      simp only [ShowsValues, hg, ← ha]
      rw [k3.1 (kv.1, kv.2.map AVal.bytes) (List.mem_map.2 ⟨kv, hkv, rfl⟩)]
      exact shows_given _ (fun v hv' => hG _ _ (hv kv hkv v hv'))
    refine ⟨dn, obj, e', h3, rfl, k2, k4, ?_, fun a ha => ?_, fun a ha => ?_⟩
    · rw [k1]
      exact k3
    · obtain ⟨kv, hkv, rfl⟩ := List.mem_map.1 (hna a ha)
      exact hshow kv hkv kv.1 rfl
    · by_cases hx : ∃ kv ∈ attrs, env.lower kv.1 = env.lower a
      · obtain ⟨kv, hkv, he⟩ := hx
        exact hshow kv hkv a he
      · exact absurd (h5 a (fun kv hkv he => hx ⟨kv, hkv, he⟩)) ha

/-- the object that `get` returns shows the entry -/
theorem got_step {G : Str → AVal → Prop} {system : Str → Prop} (hs : Serves dir contents peer) (env : Api.Env V R) (hE : Entries env.lower mo norm dir at_) (hN : Creates env.lower norm system dir at_)
    (l : Link Received.Decoded S) (hr : SessionP.Ready l.st) (dn : Str) (hg : ∀ e, at_ (contents l.peer) (norm dn) = some e → GoodEntry env.lower G (seen e)) (names : List Str) :
    let x := Api.getOne codec (fun d => d.1.1) peer env l dn none []
    contents x.1.peer = contents l.peer ∧ (x.2 ≠ .error .tagError → x.2 ≠ .error .typeError → SessionP.Ready x.1.st) ∧
    ∀ i, x.2 = .ok i → ∃ (p : Spec.DirectoryS.Found) (e : Spec.Entry Bytes) (got : PDict Str (List AVal)), i = .entry (p.1, got) [] ∧ norm p.1 = norm dn ∧ at_ (contents l.peer) (norm dn) = some e ∧
      View env.lower G (⟨CIDict.update env.lower CIDict.empty got, seen e⟩ : Props.Session AVal) ∧
      ((∀ deref size time f found, dir.finds (contents l.peer) (readOp dn deref size time f [str "*"]) found → ∀ p ∈ found, ∀ a ∈ names, e (env.lower a) ≠ [] → ∃ q ∈ p.2, env.lower q.1 = env.lower a) →
        ∀ a ∈ names, Agrees env.lower (⟨CIDict.update env.lower CIDict.empty got, seen e⟩ : Props.Session AVal) a) := by
  intro x
  simp only [x]
  obtain ⟨h1, h2, _, _, h3⟩ := DirP.getOne_step env hs l hr dn none []
  refine ⟨h1, h3, fun i hi => ?_⟩
  obtain ⟨op, p, ⟨n, f, k1, _, rfl⟩, k3, k4⟩ := h2 i hi
  cases k4 with
  | cons k4 _ =>
    obtain ⟨got, rfl, k5⟩ := k4
    have hn : n = 0 := by
      simp only [Api.getArgs, Spec.Wire.scopeNumber, Option.some.injEq] at k1
      exact k1.symm
    subst hn
    obtain ⟨e, m1, m2⟩ := hE.read _ dn _ _ _ _ [str "*"] _ k3 p (by simp)
    refine ⟨p, e, got, rfl, hN.named _ dn _ _ _ _ [str "*"] _ k3 p (by simp), m1, ?_, fun hall a ha => ?_⟩
    · obtain ⟨v0, v1⟩ := view_empty (lower := env.lower) (seen e) (hg e m1)
      exact (c10_refresh_step env.lower ⟨CIDict.empty, seen e⟩ v0 [str "*"] got (fetched e _ p.2 got m2 k5)).1
    · obtain ⟨v0, v1⟩ := view_empty (lower := env.lower) (seen e) (hg e m1)
      have hf : Faithful env.lower e names p.2 := ⟨m2.distinct, m2.sound, fun a ha hne => hall _ _ _ _ _ k3 p (by simp) a ha hne⟩
      exact (c10_refresh_step env.lower ⟨CIDict.empty, seen e⟩ v0 names got (fetched e _ p.2 got hf k5)).2.2 a ha (v1 a)

/-- what comes after the call on the object -/
theorem after_step {G : Str → AVal → Prop} {system : Str → Prop} (hG : ∀ a v, G a v → Spec.Wire.Shows v.bytes v) (hs : Serves dir contents peer) (env : Api.Env V R) (hN : Creates env.lower norm system dir at_)
    (dn : Str) (attrs : List (Str × List AVal)) (hn : (attrs.map (fun kv => env.lower kv.1)).Nodup) (hv : ∀ kv ∈ attrs, ∀ v ∈ kv.2, G kv.1 v)
    (P : Spec.Entry Bytes → Spec.Entry Bytes → Prop) (dn' : Str) (hdn : norm dn' = norm dn) (a : After Received.Decoded S) (d : D) (e : Spec.Entry Bytes) (he : at_ d (norm dn) = some e)
    (hq : (∀ x, x ≠ norm dn → at_ (contents a.link.peer) x = at_ d x) ∧ (at_ (contents a.link.peer) (norm dn)).isSome = true)
    (hview : View env.lower G (⟨a.obj, seen (entryOf contents at_ (norm dn) a.link.peer)⟩ : Props.Session AVal)) (hr : SessionP.Ready a.link.st)
    (hok : a.result = .ok () → P e (entryOf contents at_ (norm dn) a.link.peer) ∧ ∀ kv ∈ attrs, ShowsExactly env.lower (entryOf contents at_ (norm dn) a.link.peer) a.obj kv.1)
    (herr : ∀ x, a.result = .error x → entryOf contents at_ (norm dn) a.link.peer = e) :
    let r := Api.afterUpdate codec (fun d => d.1.1) peer env dn attrs dn' a
    PatternEffect env.lower norm system at_ d dn attrs P (attrs.map Prod.fst) r.2 (contents r.1.peer) ∧
    (r.2 ≠ .error .tagError → r.2 ≠ .error .typeError → SessionP.Ready r.1.st) := by
  intro r
  simp only [r, Api.afterUpdate]
  obtain ⟨e', he'⟩ := Option.isSome_iff_exists.1 hq.2
  have hent : entryOf contents at_ (norm dn) a.link.peer = e' := by
    simp only [entryOf, he', Option.getD_some]
  rw [hent] at hview hok herr
  cases hres : a.result with
  | ok _ =>
    obtain ⟨g1, g2⟩ := hok hres
    refine ⟨⟨dn', a.obj, e', rfl, hdn, he', hq.1, ?_, fun x hx => ?_, fun x hx => shows_agrees e' a.obj x (hview.view x hx)⟩, fun _ _ => hr⟩
    · rw [he]
      exact g1
    · obtain ⟨kv, hkv, rfl⟩ := List.mem_map.1 hx
      exact g2 kv hkv
  | error x =>
    have hsame : ∀ y, at_ (contents a.link.peer) y = at_ d y := by
      intro y
      by_cases hy : y = norm dn
      · subst hy
        rw [he', he, herr x hres]
      · exact hq.1 y hy
    by_cases hx : x = .noResults
    · subst hx
      dsimp only
      obtain ⟨g1, g2⟩ := addNew_step hG hs env hN a.link hr dn attrs hn hv (fun _ _ => False) (attrs.map Prod.fst) (fun _ h => h)
      refine ⟨?_, g2⟩
      revert g1
      rcases Api.addNew codec (fun d => d.1.1) peer env a.link dn attrs with ⟨l2, e2 | ret⟩
      · intro g1 y
        rw [← hsame y]
        exact g1 y
      · rintro ⟨dn2, obj2, e2, _, _, _, _, c5, _⟩
        rw [he'] at c5
        exact c5.elim
    · have hgoal : PatternEffect (R := R) env.lower norm system at_ d dn attrs P (attrs.map Prod.fst) (.error x) (contents a.link.peer) ∧
          ((.error x : Except Err (Api.Ret R)) ≠ .error .tagError → (.error x : Except Err (Api.Ret R)) ≠ .error .typeError → SessionP.Ready a.link.st) :=
        ⟨hsame, fun _ _ => hr⟩
      cases x <;> first | exact hgoal | exact absurd rfl hx

/-- the two patterns that update an object -/
theorem update_pattern {G : Str → AVal → Prop} {system : Str → Prop} (typeOf : TypeOf AVal) (hD : Decides typeOf (onBytes mo) G) (hs : Serves dir contents peer) (env : Api.Env V R)
    (hf : FoldCompat env.lower (onBytes mo) G) (hG : ∀ a v, G a v → Spec.Wire.Shows v.bytes v)
    (hE : Entries env.lower mo norm dir at_) (hN : Creates env.lower norm system dir at_) (l : Link Received.Decoded S) (hr : SessionP.Ready l.st) (dn : Str)
    (hg : ∀ e, at_ (contents l.peer) (norm dn) = some e → GoodEntry env.lower G (seen e)) (attrs : List (Str × List AVal)) (hn : (attrs.map (fun kv => env.lower kv.1)).Nodup)
    (hv : ∀ kv ∈ attrs, ∀ v ∈ kv.2, G kv.1 v) (strict : Bool) (c : ObjCall AVal) (update : OverWire.Env V R → Link Received.Decoded S → AttrsDict AVal → After Received.Decoded S)
    (hup : ∀ o l d, callOver env.lower typeOf peer o ⟨d, l⟩ c = (⟨(update o l d).obj, (update o l d).link⟩, (update o l d).result))
    (hkeep : ∀ o l d (Q : S → Prop), Keeps o.obj.dn Q peer → Q l.peer → Q (update o l d).link.peer)
    (P : Spec.Entry Bytes → Spec.Entry Bytes → Prop)
    (heff : ∀ (o : OverWire.Env V R) (w : World S) (entry : S → Spec.Entry Bytes), Conforms env.lower mo o.obj.dn entry peer → Good env.lower entry G w → CleanCall env.lower typeOf (onBytes mo) G (w.session entry) o.obj c →
      let r := callOver env.lower typeOf peer o w c
      (r.2 = .ok () → P (entry w.link.peer) (entry r.1.link.peer) ∧ ∀ kv ∈ attrs, ShowsExactly env.lower (entry r.1.link.peer) r.1.obj kv.1) ∧ (∀ e, r.2 = .error e → entry r.1.link.peer = entry w.link.peer))
    (hclean : ∀ e got dn', at_ (contents l.peer) (norm dn) = some e →
      ((∀ deref size time f found, dir.finds (contents l.peer) (readOp dn deref size time f [str "*"]) found → ∀ p ∈ found, ∀ a ∈ attrs.map Prod.fst, e (env.lower a) ≠ [] → ∃ q ∈ p.2, env.lower q.1 = env.lower a) →
        ∀ a ∈ attrs.map Prod.fst, Agrees env.lower (⟨CIDict.update env.lower CIDict.empty got, seen e⟩ : Props.Session AVal) a) →
      CleanCall env.lower typeOf (onBytes mo) G ⟨CIDict.update env.lower CIDict.empty got, seen e⟩ (env.object strict dn').obj c) :
    let r := Api.getThenUpdate codec (fun d => d.1.1) peer env strict update l dn attrs
    PatternEffect env.lower norm system at_ (contents l.peer) dn attrs P (attrs.map Prod.fst) r.2 (contents r.1.peer) ∧
    (r.2 ≠ .error .tagError → r.2 ≠ .error .typeError → SessionP.Ready r.1.st) := by
  intro r
  simp only [r, Api.getThenUpdate]
  obtain ⟨h1, h2, h3⟩ := got_step hs env hE hN l hr dn hg (attrs.map Prod.fst)
  revert h1 h2 h3
  rcases Api.getOne codec (fun d => d.1.1) peer env l dn none [] with ⟨l', x | i⟩
  · intro h1 h2 _
    dsimp only at h1 h2
    by_cases hx : x = .noResults
    · subst hx
      obtain ⟨g1, g2⟩ := addNew_step hG hs env hN l' (h2 nofun nofun) dn attrs hn hv P (attrs.map Prod.fst) (fun _ h => h)
      rw [h1] at g1
      exact ⟨g1, g2⟩
    · have hgoal : PatternEffect (R := R) env.lower norm system at_ (contents l.peer) dn attrs P (attrs.map Prod.fst) (.error x) (contents l'.peer) ∧
          ((.error x : Except Err (Api.Ret R)) ≠ .error .tagError → (.error x : Except Err (Api.Ret R)) ≠ .error .typeError → SessionP.Ready l'.st) :=
        ⟨fun y => by rw [h1], fun a b => h2 (fun h => a (by simp only [Except.error.injEq] at h; rw [h])) (fun h => b (by simp only [Except.error.injEq] at h; rw [h]))⟩
      cases x <;> first | exact hgoal | exact absurd rfl hx
  · intro h1 h2 h3
    obtain ⟨p, e, got, rfl, k1, k2, k3, k4⟩ := h3 _ rfl
    dsimp only at h1 h2 ⊢
    have hready := h2 nofun nofun
    let o := env.object strict p.1
    let w : World S := ⟨CIDict.update env.lower CIDict.empty got, l'⟩
    let entry := entryOf contents at_ (norm dn)
    have hentry : entry l'.peer = e := by
      simp only [entry, entryOf, h1, k2, Option.getD_some]
    have hconf : Conforms env.lower mo o.obj.dn entry peer := by
      have := conforms hs hE p.1
      rw [k1] at this
      exact this
    have hw : Good env.lower entry G w := ⟨hready, by
      simp only [World.session, w, hentry]
      exact k3⟩
    have hc : CleanCall env.lower typeOf (onBytes mo) G (w.session entry) o.obj c := by
      simp only [World.session, w, hentry]
      exact hclean e got p.1 k2 k4
    have hgood := call_over hD hf hG o hconf w hw c hc
    obtain ⟨g1, g2⟩ := heff o w entry hconf hw hc
    have hq := hkeep o l' (CIDict.update env.lower CIDict.empty got) (fun s => (∀ x, x ≠ norm dn → at_ (contents s) x = at_ (contents l.peer) x) ∧ (at_ (contents s) (norm dn)).isSome = true) (by
      have := keeps hs hE p.1 (contents l.peer)
      rw [k1] at this
      exact this) ⟨fun x hx => by rw [h1], by rw [h1, k2]; rfl⟩
    rw [show callOver env.lower typeOf peer o w c = _ from hup o l' (CIDict.update env.lower CIDict.empty got)] at hgood g1 g2
    have hfin := after_step hG hs env hN dn attrs hn hv P p.1 k1 (update o l' (CIDict.update env.lower CIDict.empty got)) (contents l.peer) e k2 hq
      (by
        have h := hgood.view
        exact h) hgood.ready (fun hok => by
        have h := g1 hok
        simp only [w, hentry] at h
        exact h) (fun x hx => by
        have h := g2 x hx
        simp only [w, hentry] at h
        exact h)
    exact hfin

end
end PatP

section
open WireP OverWire OverWireP Spec.OverWireS Spec.DirectoryS Spec.EntriesS Spec.PatternsS EntP PatP
variable {V R S D : Type} {dir : Directory D} {contents : S → D} {peer : Peer S} {norm : Str → Str} {mo : Str → Bytes → Bytes → Bool} {at_ : D → Str → Option (Spec.Entry Bytes)} {G : Str → AVal → Prop} {system : Str → Prop}
  (hs : Serves dir contents peer) (env : Api.Env V R) (hE : Entries env.lower mo norm dir at_) (hN : Creates env.lower norm system dir at_) (typeOf : TypeOf AVal)
  (hG : ∀ a v, G a v → Spec.Wire.Shows v.bytes v) (l : Link Received.Decoded S) (hr : SessionP.Ready l.st) (dn : Str) (hg : ∀ e, at_ (contents l.peer) (norm dn) = some e → GoodEntry env.lower G (seen e))
  (attrs : List (Str × List AVal)) (hn : (attrs.map (fun kv => env.lower kv.1)).Nodup) (hv : ∀ kv ∈ attrs, ∀ v ∈ kv.2, G kv.1 v)
include hs hE hN hG hr hg hn hv

/-- **C92 (`add_or_mod_add_if_exists`).** Against any server that serves such a directory, with any connection that is between two requests: the call raises and nothing has changed; or it returns an object, and
the entry has the values it had and those given that were not there yet, or has been created with those given; no other attribute and no other entry has changed; and the object shows the entry as it is now.
With `strict_modify`, reading all attributes must show those named. -/
theorem c92_add (hD : Decides typeOf (onBytes mo) G) (hf : FoldCompat env.lower (onBytes mo) G) (ht : ∀ kv ∈ attrs, ∃ t, typeOf kv.1 = .ok t) (strict : Bool)
    (hstrict : strict = true → ∀ e, at_ (contents l.peer) (norm dn) = some e → ∀ deref size time f found, dir.finds (contents l.peer) (readOp dn deref size time f [str "*"]) found →
      ∀ p ∈ found, ∀ a ∈ attrs.map Prod.fst, e (env.lower a) ≠ [] → ∃ q ∈ p.2, env.lower q.1 = env.lower a) :
    let r := Api.addOrModAdd codec (fun d => d.1.1) peer env typeOf strict l dn attrs
    PatternEffect env.lower norm system at_ (contents l.peer) dn attrs (fun e e' => Becomes env.lower e e' attrs (fun a vs cur => withAdded (mo a) cur (vs.map AVal.bytes))) (attrs.map Prod.fst) r.2 (contents r.1.peer) ∧
    (r.2 ≠ .error .tagError → r.2 ≠ .error .typeError → SessionP.Ready r.1.st) := by
  have hn1 : (attrs.map Prod.fst).Nodup := by
    rw [show attrs.map (fun p => env.lower p.1) = (attrs.map Prod.fst).map env.lower by rw [List.map_map]; rfl] at hn
    exact List.Pairwise.of_map _ (fun a b hab hc => hab (by rw [hc])) hn
  exact update_pattern typeOf hD hs env hf hG hE hN l hr dn hg attrs hn hv strict (.addAttrs attrs) (fun o l d => OverWire.addAttrs codec (fun d => d.1.1) peer o env.lower typeOf l d attrs) (fun _ _ _ => rfl)
    (fun o l d Q hk h => addAttrs_keeps o typeOf l d attrs hk h) _ (fun o w entry hc hw hcl => add_over hD hf hG o hc w hw attrs hn hcl)
    (fun e got dn' he hall => ⟨hn1, (fun a ha => by
      obtain ⟨kv, hkv, rfl⟩ := List.mem_map.1 ha
      exact ht kv hkv), hv, fun hst kv hkv => hall (hstrict hst e he) kv.1 (List.mem_map_of_mem hkv)⟩)

/-- **C92 (`add_or_mod_replace_if_exists`).** The same, for lists that are not empty: the entry has exactly the values given for the attributes named. -/
theorem c92_replace (hD : Decides typeOf (onBytes mo) G) (hf : FoldCompat env.lower (onBytes mo) G) (strict : Bool) (hne : ∀ kv ∈ attrs, kv.2 ≠ []) :
    let r := Api.addOrModReplace codec (fun d => d.1.1) peer env typeOf strict l dn attrs
    PatternEffect env.lower norm system at_ (contents l.peer) dn attrs (fun e e' => Becomes env.lower e e' attrs (fun _ vs _ => vs.map AVal.bytes)) (attrs.map Prod.fst) r.2 (contents r.1.peer) ∧
    (r.2 ≠ .error .tagError → r.2 ≠ .error .typeError → SessionP.Ready r.1.st) := by
  refine update_pattern typeOf hD hs env hf hG hE hN l hr dn hg attrs hn hv strict (.replaceAttrs (attrs.map (fun kv => (kv.1, .list kv.2))))
    (fun o l d => OverWire.replaceAttrs codec (fun d => d.1.1) peer o env.lower typeOf l d (attrs.map (fun kv => (kv.1, .list kv.2)))) (fun _ _ _ => rfl)
    (fun o l d Q hk h => replaceAttrs_keeps o typeOf l d _ hk h) _ (fun o w entry hc hw hcl => ?_) (fun e got dn' he hall => ?_)
  · obtain ⟨h1, h2⟩ := replace_over hD hf hG o hc w hw (attrs.map (fun kv => (kv.1, .list kv.2))) (by rw [List.map_map]; exact hn) hcl
    refine ⟨fun hok => ?_, h2⟩
    obtain ⟨⟨k1, k2⟩, k3⟩ := h1 hok
    exact ⟨⟨fun kv hkv => k1 (kv.1, .list kv.2) (List.mem_map.2 ⟨kv, hkv, rfl⟩), fun x hx => k2 x (fun kv hkv => by
      obtain ⟨q, hq, rfl⟩ := List.mem_map.1 hkv
      exact hx q hq)⟩, fun kv hkv => k3 (kv.1, .list kv.2) (List.mem_map.2 ⟨kv, hkv, rfl⟩)⟩
  · have hmods : ∀ md ∈ (attrs.map fun kv => (kv.1, Vals.list kv.2)).map (fun kv => (⟨.replace, kv.1, kv.2⟩ : Mod AVal)), ∃ kv ∈ attrs, md = ⟨.replace, kv.1, .list kv.2⟩ := by
      intro md hmd
      simp only [List.map_map, List.mem_map, Function.comp] at hmd
      obtain ⟨kv, hkv, rfl⟩ := hmd
      exact ⟨kv, hkv, rfl⟩
    have hclears : ∀ (l : List (Str × List AVal)) (e : Spec.Entry AVal), (∀ kv ∈ l, kv.2 ≠ []) → ClearsPresent env.lower (onBytes mo) e (l.map (fun kv => (⟨.replace, kv.1, kv.2⟩ : Change AVal))) := by
      intro l
      induction l with
      | nil => intro _ _; trivial
      | cons kv l ih =>
        intro e h
        exact ⟨fun _ h2 => absurd h2 (h kv (by simp)), fun e' _ => ih e' (fun x hx => h x (by simp [hx]))⟩
    refine ⟨?_, ?_, ?_, ?_, ?_⟩
    · intro md hmd; obtain ⟨kv, _, rfl⟩ := hmods md hmd; simp
    · intro md hmd; obtain ⟨kv, hkv, rfl⟩ := hmods md hmd; simpa [valsList] using hv kv hkv
    · intro _ md hmd; obtain ⟨kv, hkv, rfl⟩ := hmods md hmd; simpa using hne kv hkv
    · rw [show meant ((attrs.map fun kv => (kv.1, Vals.list kv.2)).map (fun kv => (⟨.replace, kv.1, kv.2⟩ : Mod AVal))) = attrs.map (fun kv => (⟨.replace, kv.1, kv.2⟩ : Change AVal)) by
        simp [meant, List.map_map, Function.comp_def, valsList]]
      exact hclears attrs _ hne
    · intro md hmd; obtain ⟨kv, hkv, rfl⟩ := hmods md hmd; right; exact ⟨rfl, by simpa [valsList] using hne kv hkv⟩

/-- **C92 (`add_if_not_exists`).** An entry that is there is left as it is, and shown; one that is not is created with the attributes given. -/
theorem c92_if_not_exists :
    let r := Api.addIfNotExists codec (fun d => d.1.1) peer env l dn attrs
    PatternEffect env.lower norm system at_ (contents l.peer) dn attrs (fun e e' => e' = e) [] r.2 (contents r.1.peer) ∧
    (r.2 ≠ .error .tagError → r.2 ≠ .error .typeError → SessionP.Ready r.1.st) := by
  intro r
  simp only [r, Api.addIfNotExists]
  obtain ⟨h1, h2, h3⟩ := got_step hs env hE hN l hr dn hg (attrs.map Prod.fst)
  revert h1 h2 h3
  rcases Api.getOne codec (fun d => d.1.1) peer env l dn none [] with ⟨l', x | i⟩
  · intro h1 h2 _
    dsimp only at h1 h2
    by_cases hx : x = .noResults
    · subst hx
      obtain ⟨g1, g2⟩ := addNew_step hG hs env hN l' (h2 nofun nofun) dn attrs hn hv (fun e e' => e' = e) [] nofun
      rw [h1] at g1
      exact ⟨g1, g2⟩
    · have hgoal : PatternEffect (R := R) env.lower norm system at_ (contents l.peer) dn attrs (fun e e' => e' = e) [] (.error x) (contents l'.peer) ∧
          ((.error x : Except Err (Api.Ret R)) ≠ .error .tagError → (.error x : Except Err (Api.Ret R)) ≠ .error .typeError → SessionP.Ready l'.st) :=
        ⟨fun y => by rw [h1], fun a b => h2 (fun h => a (by simp only [Except.error.injEq] at h; rw [h])) (fun h => b (by simp only [Except.error.injEq] at h; rw [h]))⟩
      cases x <;> first | exact hgoal | exact absurd rfl hx
  · intro h1 h2 h3
    obtain ⟨p, e, got, rfl, k1, k2, k3, k4⟩ := h3 _ rfl
    dsimp only at h1 h2 ⊢
    refine ⟨⟨p.1, _, e, rfl, k1, by rw [h1]; exact k2, fun x _ => by rw [h1], ?_, nofun, fun a ha => shows_agrees e _ a (k3.view a ha)⟩, fun _ _ => h2 nofun nofun⟩
    rw [k2]

end

section
open WireP OverWire OverWireP Spec.OverWireS Spec.DirectoryS Spec.EntriesS Spec.PatternsS EntP PatP

theorem PatP.addOp_inj (dn dn' : Str) (as as' : List (Str × List Bytes)) (h : Spec.PatternsS.addOp dn as = Spec.PatternsS.addOp dn' as') : dn = dn' ∧ as = as' := by
  simp only [Spec.PatternsS.addOp, Spec.Wire.Op.addRequest.injEq] at h
  refine ⟨utf8_injective _ _ h.1, ?_⟩
  replace h := h.2
  clear dn dn'
  induction as generalizing as' with
  | nil => cases as' with
    | nil => rfl
    | cons _ _ => cases h
  | cons a as ih => cases as' with
    | nil => cases h
    | cons b bs =>
      simp only [List.map_cons, List.cons.injEq, Spec.Wire.Attr.mk.injEq] at h
      rw [ih bs h.2]
      obtain ⟨a1, a2⟩ := a
      obtain ⟨b1, b2⟩ := b
      simp only at h
      rw [utf8_injective _ _ h.1.1, h.1.2]

/-- the entry made of these attributes -/
def PatP.made (lower : Str → Str) (attrs : List (Str × List Bytes)) : Spec.Entry Bytes := fun x => ((attrs.find? (fun a => decide (lower a.1 = x))).map Prod.snd).getD []

theorem PatP.made_created (lower : Str → Str) (attrs : List (Str × List Bytes)) (hn : (attrs.map (fun a => lower a.1)).Nodup) : Created lower (fun _ => False) attrs (made lower attrs) := by
  refine ⟨fun a ha => ?_, fun x hx _ => ?_⟩
  · induction attrs with
    | nil => cases ha
    | cons b bs ih =>
      simp only [List.map_cons, List.nodup_cons] at hn
      rcases List.mem_cons.1 ha with rfl | ha
      · simp [made]
      · have hne : lower b.1 ≠ lower a.1 := fun h => hn.1 (h ▸ List.mem_map.2 ⟨a, ha, rfl⟩)
        rw [← ih hn.2 ha]
        simp [made, hne]
  · have : attrs.find? (fun a => decide (lower a.1 = x)) = none := by
      rw [List.find?_eq_none]
      intro a ha
      simpa using hx a ha
    simp [made, this]

/-- **C92 (there are such directories).** Whatever equality of values and normalization of DNs: there is a directory of entries by DN in which every modify request that RFC 4511 allows, and every add request for a
DN that has no entry, is possible, and in which reading a DN finds its entry (and by `c90_server_exists` there is a server that has it). -/
theorem c92_directory_exists (lower norm : Str → Str) (mo : Str → Bytes → Bytes → Bool) : ∃ dir : Directory (Str → Option (Spec.Entry Bytes)), Entries lower mo norm dir (fun d => d) ∧
    Creates lower norm (fun _ => False) dir (fun d => d) ∧
    (∀ d dn cs e e', d (norm dn) = some e → srvModify lower mo e cs = .ok e' → ∃ d', dir.updated d (Spec.OverWireS.modifyOp dn cs) d') ∧
    (∀ d dn attrs, d (norm dn) = none → ∃ d', dir.updated d (Spec.PatternsS.addOp dn attrs) d') ∧
    (∀ d dn deref size time f attrs e, d (norm dn) = some e → ∃ got, dir.finds d (readOp dn deref size time f attrs) [(dn, got)] ∧ Faithful lower e attrs got) := by
  refine ⟨⟨fun d op d' => (∃ dn cs e e', op = Spec.OverWireS.modifyOp dn cs ∧ d (norm dn) = some e ∧ srvModify lower mo e cs = .ok e' ∧ d' = fun x => if x = norm dn then some e' else d x) ∨
      ∃ dn attrs, op = Spec.PatternsS.addOp dn attrs ∧ d (norm dn) = none ∧ d' = fun x => if x = norm dn then some (made lower attrs) else d x, fun _ _ _ _ => False,
    fun d op found => ∃ dn deref size time f attrs, op = readOp dn deref size time f attrs ∧ ((d (norm dn) = none ∧ found = []) ∨ ∃ e, d (norm dn) = some e ∧ found = [(dn, listing lower e attrs)])⟩,
    ⟨?_, ?_⟩, ⟨?_, ?_⟩, ?_, ?_, ?_⟩
  · rintro d dn cs d' (⟨dn', cs', e, e', h1, h2, h3, rfl⟩ | ⟨dn', attrs, h1, _⟩)
    · have hdn : dn = dn' := by
        simp only [Spec.OverWireS.modifyOp, Spec.Wire.Op.modifyRequest.injEq] at h1
        exact utf8_injective _ _ h1.1
      subst hdn
      have := modifyOp_inj _ _ _ h1
      subst this
      exact ⟨e, e', h2, h3, if_pos rfl, fun x hx => if_neg hx⟩
    · cases h1
  · rintro d dn deref size time f attrs found ⟨dn', deref', size', time', f', attrs', h1, h2⟩ p hp
    simp only [readOp, Spec.Wire.Op.searchRequest.injEq] at h1
    have hdn := utf8_injective _ _ h1.1
    have ha := map_utf8_inj _ _ h1.2.2.2.2.2.2.2
    subst hdn ha
    rcases h2 with ⟨_, rfl⟩ | ⟨e, h2, rfl⟩
    · cases hp
    · simp only [List.mem_singleton] at hp
      subst hp
      exact ⟨e, h2, listing_faithful lower e attrs⟩
  · rintro d dn attrs d' hn (⟨dn', cs', e, e', h1, _⟩ | ⟨dn', attrs', h1, h2, rfl⟩)
    · cases h1
    · obtain ⟨rfl, rfl⟩ := addOp_inj _ _ _ _ h1
      exact ⟨h2, ⟨_, if_pos rfl, made_created lower attrs hn⟩, fun x hx => if_neg hx⟩
  · rintro d dn deref size time f attrs found ⟨dn', deref', size', time', f', attrs', h1, h2⟩ p hp
    simp only [readOp, Spec.Wire.Op.searchRequest.injEq] at h1
    have hdn := utf8_injective _ _ h1.1
    subst hdn
    rcases h2 with ⟨_, rfl⟩ | ⟨e, h2, rfl⟩
    · cases hp
    · simp only [List.mem_singleton] at hp
      subst hp
      rfl
  · intro d dn cs e e' h1 h2
    exact ⟨_, .inl ⟨dn, cs, e, e', rfl, h1, h2, rfl⟩⟩
  · intro d dn attrs h
    exact ⟨_, .inr ⟨dn, attrs, rfl, h, rfl⟩⟩
  · intro d dn deref size time f attrs e h
    exact ⟨_, ⟨dn, deref, size, time, f, attrs, rfl, .inr ⟨e, h, rfl⟩⟩, listing_faithful lower e attrs⟩

/-- **C92 (a reference).** If `get` gives a reference to another server instead of an object, `add_or_mod_add_if_exists` and `add_or_mod_replace_if_exists` raise an `AttributeError` and send nothing more,
and `add_if_not_exists` returns the reference, whatever the server. -/
theorem c92_reference {V R S : Type} (peer : Peer S) (env : Api.Env V R) (typeOf : TypeOf AVal) (l l' : Link Received.Decoded S) (dn : Str) (u : List Str) (c : PDict Str R)
    (h : Api.getOne codec (fun d => d.1.1) peer env l dn none [] = (l', .ok (.ref u c))) (strict : Bool) (attrs : List (Str × List AVal)) :
    Api.addOrModAdd codec (fun d => d.1.1) peer env typeOf strict l dn attrs = (l', .error .attributeError) ∧
    Api.addOrModReplace codec (fun d => d.1.1) peer env typeOf strict l dn attrs = (l', .error .attributeError) ∧
    Api.addIfNotExists codec (fun d => d.1.1) peer env l dn attrs = (l', .ok (.found [.ref u c])) := by
  refine ⟨?_, ?_, ?_⟩
  · simp only [Api.addOrModAdd, Api.getThenUpdate, h]
  · simp only [Api.addOrModReplace, Api.getThenUpdate, h]
  · simp only [Api.addIfNotExists, h]

set_option maxRecDepth 100000 in
theorem PatP.ref_got : isRef (Api.getOne codec (fun d => d.1.1) refPeer refEnv ⟨Session.St.init, []⟩ (str "o") none []).2 = true := by decide +kernel

example : ∃ l' u c, Api.getOne codec (fun d => d.1.1) refPeer refEnv ⟨Session.St.init, []⟩ (str "o") none [] = (l', .ok (.ref u c)) := by
  have h := PatP.ref_got
  rcases hx : Api.getOne codec (fun d => d.1.1) refPeer refEnv ⟨Session.St.init, []⟩ (str "o") none [] with ⟨l', r⟩
  rw [hx] at h
  unfold isRef at h
  split at h
  · rename_i u hr
    simp only at hr
    exact ⟨l', [u], [], by rw [hr]⟩
  · cases h

/-! A directory that has the entry `o` or has it not, and a server that has it: two values are given. The server has its own form of the DN, `O`. -/
namespace PatP

def atP : Option (List Bytes) → Str → Option (Spec.Entry Bytes) := fun d x => if x = str "o" then d.map ent else none

def pDir : Directory (Option (List Bytes)) where
  updated d op d' := (∃ dn cs vs vs', lc dn = str "o" ∧ op = Spec.OverWireS.modifyOp dn cs ∧ d = some vs ∧ d' = some vs' ∧ srvModify lc eqb (ent vs) cs = .ok (ent vs')) ∨
    ∃ dn name vs, lc dn = str "o" ∧ lc name = str "cn" ∧ op = Spec.PatternsS.addOp dn [(name, vs)] ∧ d = none ∧ d' = some vs
  holds _ _ _ _ := False
  finds d op found := ∃ dn deref size time f attrs, lc dn = str "o" ∧ op = readOp dn deref size time f attrs ∧ found = match d with
    | none => []
    | some vs => [(str "O", [(str "cn", vs)])]

theorem p_entries : Entries lc eqb lc pDir atP := by
  refine ⟨?_, ?_⟩
  · rintro d dn cs d' (⟨dn', cs', vs, vs', h0, h1, rfl, rfl, h3⟩ | ⟨dn', name, vs, _, _, h1, _⟩)
    · have hdn : dn = dn' := by
        simp only [Spec.OverWireS.modifyOp, Spec.Wire.Op.modifyRequest.injEq] at h1
        exact utf8_injective _ _ h1.1
      subst hdn
      have := modifyOp_inj _ _ _ h1
      subst this
      rw [h0]
      exact ⟨ent vs, ent vs', rfl, h3, rfl, fun x hx => by simp only [atP, if_neg hx]⟩
    · cases h1
  · rintro d dn deref size time f attrs found ⟨dn', deref', size', time', f', attrs', h0, h1, rfl⟩ p hp
    simp only [readOp, Spec.Wire.Op.searchRequest.injEq] at h1
    have hdn := utf8_injective _ _ h1.1
    subst hdn
    cases d with
    | none => cases hp
    | some vs =>
      simp only [List.mem_singleton] at hp
      subst hp
      rw [h0]
      refine ⟨ent vs, rfl, ⟨List.nodup_cons.2 ⟨List.not_mem_nil, List.nodup_nil⟩, fun p hp => ?_, fun a _ hne => ⟨_, List.mem_singleton.2 rfl, ?_⟩⟩⟩
      · rw [List.mem_singleton.1 hp]
        rfl
      · by_cases hx : lc a = str "cn"
        · rw [hx]
          dsimp only
          decide
        · exact absurd (if_neg hx) hne

theorem p_creates : Creates lc lc (fun _ => False) pDir atP := by
  refine ⟨?_, ?_⟩
  · rintro d dn attrs d' hn (⟨dn', cs', vs, vs', _, h1, _⟩ | ⟨dn', name, vs, h0, h0', h1, rfl, rfl⟩)
    · cases h1
    · obtain ⟨rfl, rfl⟩ := addOp_inj _ _ _ _ h1
      rw [h0]
      refine ⟨rfl, ⟨ent vs, rfl, fun a ha => ?_, fun x hx _ => ?_⟩, fun x hx => by simp only [atP, if_neg hx]⟩
      · rw [List.mem_singleton.1 ha, h0']
        rfl
      · have : x ≠ str "cn" := fun h => hx (name, vs) (List.mem_singleton.2 rfl) (by rw [h0', h])
        exact if_neg this
  · rintro d dn deref size time f attrs found ⟨dn', deref', size', time', f', attrs', h0, h1, rfl⟩ p hp
    simp only [readOp, Spec.Wire.Op.searchRequest.injEq] at h1
    have hdn := utf8_injective _ _ h1.1
    subst hdn
    cases d with
    | none => cases hp
    | some vs =>
      simp only [List.mem_singleton] at hp
      subst hp
      rw [h0]
      dsimp only
      decide

def readBytes : Bytes := [48, 41, 2, 1, 1, 99, 36, 4, 1, 111, 10, 1, 0, 10, 1, 0, 2, 1, 2, 2, 1, 0, 1, 1, 0, 135, 11, 111, 98, 106, 101, 99, 116, 67, 108, 97, 115, 115, 48, 3, 4, 1, 42]
def readMsg : Spec.Wire.Message := ⟨1, .searchRequest [111] 0 0 2 0 false (.present [111, 98, 106, 101, 99, 116, 67, 108, 97, 115, 115]) [[42]], none⟩
def modBytes : Bytes := [48, 26, 2, 1, 2, 102, 21, 4, 1, 79, 48, 16, 48, 14, 10, 1, 0, 48, 9, 4, 2, 67, 78, 49, 3, 4, 1, 98]
def modMsg : Spec.Wire.Message := ⟨2, .modifyRequest [79] [(0, ⟨[67, 78], [[98]]⟩)], none⟩
def addBytes : Bytes := [48, 24, 2, 1, 2, 104, 19, 4, 1, 111, 48, 14, 48, 12, 4, 2, 67, 78, 49, 6, 4, 1, 97, 4, 1, 98]
def addMsg : Spec.Wire.Message := ⟨2, .addRequest [111] [⟨[67, 78], [[97], [98]]⟩], none⟩
def entryBytes : Bytes := [48, 21, 2, 1, 1, 100, 16, 4, 1, 79, 48, 11, 48, 9, 4, 2, 99, 110, 49, 3, 4, 1, 97]
def doneBytes : Bytes := [48, 12, 2, 1, 1, 101, 7, 10, 1, 0, 4, 0, 4, 0]
def readOut (s : Option (List Bytes)) : Option (List Bytes) × List Bytes :=
  if s = some [[97]] then (s, [entryBytes ++ [48], doneBytes.drop 1]) else if s = none then (s, [doneBytes]) else (s, [[48, 12, 2, 1, 1, 101, 7, 10, 1, 53, 4, 0, 4, 0]])
def modOut (s : Option (List Bytes)) : Option (List Bytes) × List Bytes :=
  if s = some [[97]] then (some [[97], [98]], [[48, 12, 2, 1, 2, 103, 7, 10, 1, 0, 4, 0, 4, 0]]) else (s, [[48, 12, 2, 1, 2, 103, 7, 10, 1, 53, 4, 0, 4, 0]])
def addOut (s : Option (List Bytes)) : Option (List Bytes) × List Bytes :=
  if s = none then (some [[97], [98]], [[48, 12, 2, 1, 2, 105, 7, 10, 1, 0, 4, 0, 4, 0]]) else (s, [[48, 12, 2, 1, 2, 105, 7, 10, 1, 68, 4, 0, 4, 0]])

noncomputable def pPeer : Peer (Option (List Bytes)) := fun s bs => if bs = readBytes then readOut s else (fun s bs => if bs = modBytes then modOut s else
  (fun s bs => if bs = addBytes then addOut s else Classical.choose (c90_server_exists pDir) s bs) s bs) s bs

theorem p_serves : Serves pDir (fun d => d) pPeer := by
  have h0 := (Classical.choose_spec (c90_server_exists pDir)).1
  have ha := WireR.has_enc addMsg addBytes (by decide +kernel)
  have hm := WireR.has_enc modMsg modBytes (by decide +kernel)
  have hg := WireR.has_enc readMsg readBytes (by decide +kernel)
  refine DirP.override (DirP.override (DirP.override h0 addMsg addBytes ha.1 ha.2 addOut ?_ nofun (fun _ h => h.elim)) modMsg modBytes hm.1 hm.2 modOut ?_ nofun (fun _ h => h.elim)) readMsg readBytes hg.1 hg.2 readOut nofun nofun ?_
  · intro s resp hresp
    cases hresp
    by_cases hs : s = none
    · subst hs
      have hr := WireR.has_enc ⟨2, .addResponse (said 0), none⟩ [48, 12, 2, 1, 2, 105, 7, 10, 1, 0, 4, 0, 4, 0] (by decide +kernel)
      exact ⟨said 0, ⟨_, .cons hr .nil, by decide, by decide⟩, .inl ⟨rfl, .inr ⟨str "o", str "CN", [[97], [98]], by decide, by decide, rfl, rfl, rfl⟩⟩⟩
    · simp only [addOut, if_neg hs]
      have hr := WireR.has_enc ⟨2, .addResponse (said 68), none⟩ [48, 12, 2, 1, 2, 105, 7, 10, 1, 68, 4, 0, 4, 0] (by decide +kernel)
      exact ⟨said 68, ⟨_, .cons hr .nil, by decide, by decide⟩, .inr ⟨by decide, trivial⟩⟩
  · intro s resp hresp
    cases hresp
    by_cases hs : s = some [[97]]
    · subst hs
      have hr := WireR.has_enc ⟨2, .modifyResponse (said 0), none⟩ [48, 12, 2, 1, 2, 103, 7, 10, 1, 0, 4, 0, 4, 0] (by decide +kernel)
      refine ⟨said 0, ⟨_, .cons hr .nil, by decide, by decide⟩, .inl ⟨rfl, .inl ⟨str "O", [⟨.add, str "CN", [[98]]⟩], [[97]], [[97], [98]], by decide, rfl, rfl, rfl, ?_⟩⟩⟩
      have h1 : lc (str "CN") = str "cn" := by decide
      simp only [srvModify, srvChange, h1]
      rw [show ent [[97]] (str "cn") = [[97]] from rfl, show srvAdd (eqb (str "CN")) [[97]] [[98]] = .ok [[97], [98]] by decide]
      simp only [Except.ok.injEq]
      funext x
      simp only [Entry.put, h1, ent]
      by_cases hx : x = str "cn"
      · simp [hx]
      · simp [hx]
    · simp only [modOut, if_neg hs]
      have hr := WireR.has_enc ⟨2, .modifyResponse (said 53), none⟩ [48, 12, 2, 1, 2, 103, 7, 10, 1, 53, 4, 0, 4, 0] (by decide +kernel)
      exact ⟨said 53, ⟨_, .cons hr .nil, by decide, by decide⟩, .inr ⟨by decide, trivial⟩⟩
  · intro s _
    have h2 := WireR.has_enc ⟨1, .searchResDone (said 0), none⟩ doneBytes (by decide +kernel)
    by_cases hs : s = some [[97]]
    · subst hs
      have h1 := WireR.has_enc ⟨1, Spec.DirectoryS.entryOp (str "O", [(str "cn", [[97]])]), none⟩ entryBytes (by decide +kernel)
      exact ⟨rfl, [(str "O", [(str "cn", [[97]])])], said 0, by decide, rfl, by decide, ⟨_, .cons h1 (.cons h2 .nil), by decide, by decide⟩,
        fun _ => ⟨str "o", 0, 2, 0, _, [str "*"], by decide, rfl, rfl⟩, fun h => absurd h (by decide)⟩
    · simp only [readOut, if_neg hs]
      by_cases hn : s = none
      · subst hn
        simp only [if_true]
        exact ⟨trivial, [], said 0, by decide, rfl, nofun, ⟨_, .cons h2 .nil, by decide, by decide⟩, fun _ => ⟨str "o", 0, 2, 0, _, [str "*"], by decide, rfl, rfl⟩, fun h => absurd h (by decide)⟩
      · simp only [if_neg hn]
        have h2 := WireR.has_enc ⟨1, .searchResDone (said 53), none⟩ [48, 12, 2, 1, 1, 101, 7, 10, 1, 53, 4, 0, 4, 0] (by decide +kernel)
        exact ⟨trivial, [], said 53, by decide, rfl, nofun, ⟨_, .cons h2 .nil, by decide, by decide⟩, fun h => absurd h (by decide), fun h => absurd h (by decide)⟩

noncomputable def pRun (d : Option (List Bytes)) := Api.addOrModAdd codec (fun d => d.1.1) pPeer DirP.sampleEnv (fun _ => .ok (.default : AttrType AVal)) false ⟨Session.St.init, d⟩ (str "o") [(str "CN", [.text (str "a"), .text (str "b")])]

def isObject (dn : Str) : Except Err (Api.Ret Unit) → Bool
  | .ok (.object dn' d) => decide (dn' = dn) && decide (AttrsDict.getAttr lc d (str "Cn") = [.text (str "a"), .text (str "b")])
  | _ => false

set_option maxRecDepth 100000 in
theorem run_there : isObject (str "O") (pRun (some [[97]])).2 = true ∧ (pRun (some [[97]])).1.peer = some [[97], [98]] := by decide +kernel

set_option maxRecDepth 100000 in
theorem run_new : isObject (str "o") (pRun none).2 = true ∧ (pRun none).1.peer = some [[97], [98]] := by decide +kernel

theorem p_good (l : List Bytes) : GoodEntry lc (fun _ v => Spec.Wire.Shows v.bytes v) (seen (ent l)) := by
  intro a x hx
  obtain ⟨b, _, rfl⟩ := List.mem_map.1 hx
  have := OverWireP.shows_map [b]
  rw [bytes_shown]
  cases this with
  | cons h _ => exact h

example (d : Option (List Bytes)) : PatternEffect lc lc (fun _ => False) atP d (str "o") [(str "CN", [.text (str "a"), .text (str "b")])]
    (fun e e' => Becomes lc e e' [(str "CN", [.text (str "a"), .text (str "b")])] (fun a vs cur => withAdded (eqb a) cur (vs.map AVal.bytes))) [str "CN"] (pRun d).2 (pRun d).1.peer :=
  (c92_add (G := fun _ v => Spec.Wire.Shows v.bytes v) p_serves DirP.sampleEnv p_entries p_creates (fun _ => .ok (.default : AttrType AVal)) (fun _ _ h => h) ⟨Session.St.init, d⟩ SessionP.ready_init (str "o")
    (by
      intro e he
      have he : d.map ent = some e := he
      cases d with
      | none => cases he
      | some vs =>
        cases he
        exact p_good vs) [(str "CN", [.text (str "a"), .text (str "b")])] (by decide) (by
      intro kv hkv v hv
      simp only [List.mem_singleton] at hkv
      subst hkv
      simp only [List.mem_cons, List.not_mem_nil, or_false] at hv
      rcases hv with rfl | rfl <;> rfl) OverWireP.octets_decide ⟨fun _ _ _ => rfl, fun _ _ _ _ h => h⟩ (fun _ _ => ⟨_, rfl⟩) false nofun).1

/-- the hypotheses of the other two theorems are met by the same server -/
example (d : Option (List Bytes)) :
    PatternEffect (R := Unit) lc lc (fun _ => False) atP d (str "o") [(str "CN", [.text (str "b")])] (fun e e' => e' = e) [] (Api.addIfNotExists codec (fun d => d.1.1) pPeer DirP.sampleEnv ⟨Session.St.init, d⟩ (str "o") [(str "CN", [.text (str "b")])]).2
      (Api.addIfNotExists codec (fun d => d.1.1) pPeer DirP.sampleEnv ⟨Session.St.init, d⟩ (str "o") [(str "CN", [.text (str "b")])]).1.peer ∧
    (let r := Api.addOrModReplace codec (fun d => d.1.1) pPeer DirP.sampleEnv (fun _ => .ok (.default : AttrType AVal)) false ⟨Session.St.init, d⟩ (str "o") [(str "CN", [.text (str "b")])]
     PatternEffect (R := Unit) lc lc (fun _ => False) atP d (str "o") [(str "CN", [.text (str "b")])] (fun e e' => Becomes lc e e' [(str "CN", [.text (str "b")])] (fun _ vs _ => vs.map AVal.bytes)) [str "CN"] r.2 r.1.peer) := by
  have hgood : ∀ e, atP d (lc (str "o")) = some e → GoodEntry lc (fun _ v => Spec.Wire.Shows v.bytes v) (seen e) := by
    intro e he
    have he : d.map ent = some e := he
    cases d with
    | none => cases he
    | some vs =>
      cases he
      exact p_good vs
  have hvals : ∀ kv ∈ [(str "CN", [AVal.text (str "b")])], ∀ v ∈ kv.2, Spec.Wire.Shows v.bytes v := by
    intro kv hkv v hv
    simp only [List.mem_singleton] at hkv
    subst hkv
    simp only [List.mem_singleton] at hv
    subst hv
    rfl
  exact ⟨(c92_if_not_exists (G := fun _ v => Spec.Wire.Shows v.bytes v) p_serves DirP.sampleEnv p_entries p_creates (fun _ _ h => h) ⟨Session.St.init, d⟩ SessionP.ready_init (str "o") hgood _ (by decide) hvals).1,
    (c92_replace (G := fun _ v => Spec.Wire.Shows v.bytes v) p_serves DirP.sampleEnv p_entries p_creates (fun _ => .ok (.default : AttrType AVal)) (fun _ _ h => h) ⟨Session.St.init, d⟩ SessionP.ready_init (str "o") hgood _
      (by decide) hvals OverWireP.octets_decide ⟨fun _ _ _ => rfl, fun _ _ _ _ h => h⟩ false (by decide)).1⟩

/-! Empty lists in `add_or_mod_replace_if_exists` -/
noncomputable def emptyRun (o : EmptyOpts) := Api.addOrModReplace codec (fun d => d.1.1) pPeer { DirP.sampleEnv with opts := o } (fun _ => .ok (.default : AttrType AVal)) false ⟨Session.St.init, some [[97]]⟩ (str "o") [(str "CN", [])]

def isBare (r : Except Err (Api.Ret Unit)) : Bool :=
  match r with
  | .ok (.object dn' d) => decide (dn' = str "O") && decide (AttrsDict.getAttr lc d (str "cn") = [])
  | _ => false

def isLdapError (r : Except Err (Api.Ret Unit)) : Bool :=
  match r with
  | .error e => decide (e = .ldapError)
  | _ => false

set_option maxRecDepth 100000 in
theorem empty_runs : (isBare (emptyRun { error := false, ignore := true }).2 = true ∧ (emptyRun { error := false, ignore := true }).1.peer = some [[97]]) ∧
    isLdapError (emptyRun { error := true, ignore := true }).2 = true ∧ (emptyRun { error := true, ignore := true }).1.peer = some [[97]] := by decide +kernel

end PatP

/-- `hne` of `c92_replace` is needed. There is a server of this directory, whose entry `o` has the value `a` for `cn`: `add_or_mod_replace_if_exists('o', {'CN': []})` of a connection with the default settings
(empty lists ignored) returns an object that shows no values for `cn`, although the entry has them still; with `error_empty_list` it raises, and the entry is as it was. -/
theorem c92_empty_witness : Serves PatP.pDir (fun d => d) PatP.pPeer ∧ Entries lc eqb lc PatP.pDir PatP.atP ∧ Creates lc lc (fun _ => False) PatP.pDir PatP.atP ∧
    (∃ dn' obj, (PatP.emptyRun { error := false, ignore := true }).2 = .ok (.object dn' obj) ∧ AttrsDict.getAttr lc obj (str "cn") = [] ∧
      ∃ e', PatP.atP (PatP.emptyRun { error := false, ignore := true }).1.peer (lc (str "o")) = some e' ∧ e' (str "cn") = [[97]]) ∧
    (PatP.emptyRun { error := true, ignore := true }).2 = .error .ldapError ∧ (PatP.emptyRun { error := true, ignore := true }).1.peer = some [[97]] := by
  obtain ⟨⟨h1, h2⟩, h3, h4⟩ := PatP.empty_runs
  refine ⟨PatP.p_serves, PatP.p_entries, PatP.p_creates, ?_, ?_, h4⟩
  · rw [h2]
    unfold PatP.isBare at h1
    split at h1
    · rename_i dn' d hr
      simp only [Bool.and_eq_true, decide_eq_true_eq] at h1
      exact ⟨dn', d, hr, h1.2, _, rfl, rfl⟩
    · cases h1
  · unfold PatP.isLdapError at h3
    split at h3
    · rename_i e hr
      rw [hr, of_decide_eq_true h3]
    · cases h3

end
end Laurelin.Props
