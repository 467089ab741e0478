import Verif.Spec.ApplyLdif
import Verif.Props.Willing
import Verif.Props.LdifRead
import Verif.Props.LdifCrlf
/-!
# C94: applying an LDIF file to a directory
-/
namespace Laurelin.Props
open Laurelin Codec Asn1 Rfc4511 Spec
namespace AppP
open Laurelin.Wire WireP WireR OverWire OverWireP DirP WillP Spec.OverWireS Spec.DirectoryS Spec.WillingS Spec.ApplyS
open Laurelin.Spec.Ldif (Item Datum Ctl MeansAll runOps)
section
variable {V R S D : Type} {dir : Directory D} {contents : S → D} {peer : Peer S}

theorem keys_mem {W : Type} (d : PDict Str W) (a : Str) : a ∈ d.map Prod.fst ↔ ∃ w, d.get? a = some w := PDict.mem_keys_iff d a

/-- the attributes read from the lines of an `add`, as they are sent -/
theorem grouped (attrs : List (Str × Datum)) (d : PDict Str (List LVal)) (hn : (d.map Prod.fst).Nodup) (hne : ∀ kv ∈ d, kv.2 ≠ [])
    (hd : ∀ a, (d.get? a).getD [] = (attrs.filter (fun ai => ai.1 = a)).map (fun ai => ai.2.value)) :
    (∀ a, a ∈ d.map Prod.fst ↔ a ∈ attrs.map Prod.fst) ∧ ∀ kv ∈ d, kv.2 = (attrs.filter (fun ai => ai.1 = kv.1)).map (fun ai => ai.2.value) := by
  have h2 : ∀ kv ∈ d, kv.2 = (attrs.filter (fun ai => ai.1 = kv.1)).map (fun ai => ai.2.value) := by
    intro kv hkv
    have := hd kv.1
    rw [(PDict.mem_iff_get? d hn kv.1 kv.2).1 hkv] at this
    exact this
  refine ⟨fun a => ⟨fun h => ?_, fun h => ?_⟩, h2⟩
  · obtain ⟨kv, hkv, rfl⟩ := List.mem_map.1 h
    have h1 := h2 kv hkv
    have h0 := hne kv hkv
    rw [h1] at h0
    cases hf : attrs.filter (fun ai => ai.1 = kv.1) with
    | nil => rw [hf] at h0; exact absurd rfl h0
    | cons x xs =>
      have hx : x ∈ attrs.filter (fun ai => ai.1 = kv.1) := by rw [hf]; exact List.mem_cons_self
      obtain ⟨hx1, hx2⟩ := List.mem_filter.1 hx
      exact List.mem_map.2 ⟨x, hx1, of_decide_eq_true hx2⟩
  · obtain ⟨ai, hai, rfl⟩ := List.mem_map.1 h
    have h1 := hd ai.1
    cases hg : d.get? ai.1 with
    | some w => exact (PDict.mem_keys_iff d ai.1).2 ⟨w, hg⟩
    | none =>
      rw [hg] at h1
      have : ai ∈ attrs.filter (fun x => x.1 = ai.1) := List.mem_filter.2 ⟨hai, by simp⟩
      cases hf : attrs.filter (fun x => x.1 = ai.1) with
      | nil => rw [hf] at this; cases this
      | cons x xs => rw [hf] at h1; simp at h1

theorem vals_text (l : List (Str × Datum)) : ((l.map (fun ai => ai.2.value)).map Api.valOf).map (·.bytes) = l.map (fun ai => Spec.Ldif.octets ai.2.value) := by
  rw [List.map_map, List.map_map]
  refine List.map_congr_left (fun ai _ => ?_)
  show (Api.valOf ai.2.value).bytes = Spec.Ldif.octets ai.2.value
  cases ai.2.value <;> rfl

theorem mods_sent (o : EmptyOpts) (mods : List Spec.Ldif.ModSpec) (h : o.ignore = true → ∀ m ∈ mods, m.vals ≠ []) :
    ((mods.map (fun m => (⟨m.op, m.name, .list (m.vals.map (fun i => LVal.text i.value))⟩ : Mod LVal))).map (fun md => (⟨md.op, md.attr, match md.vals with
      | .deleteAll => .deleteAll
      | .list l => .list (l.map Api.valOf)⟩ : Mod AVal))).filterMap (changeOf o) = mods.map (fun m => ⟨m.op, m.name, m.vals.map (fun i => utf8Enc i.value)⟩) := by
  induction mods with
  | nil => rfl
  | cons m mods ih =>
    rw [List.map_cons, List.map_cons, List.map_cons, List.filterMap_cons, ih (fun hi x hx => h hi x (List.mem_cons_of_mem _ hx))]
    have hv : m.vals = [] ∨ ∃ i l, m.vals = i :: l := by
      cases m.vals with
      | nil => exact .inl rfl
      | cons i l => exact .inr ⟨i, l, rfl⟩
    obtain ⟨op, name, vals⟩ := m
    dsimp only at hv ⊢
    have hmap : ∀ l : List Item, ((l.map (fun i => LVal.text i.value)).map Api.valOf).map (·.bytes) = l.map (fun i => utf8Enc i.value) := by
      intro l
      rw [List.map_map, List.map_map]
      rfl
    rcases hv with rfl | ⟨i, l, rfl⟩
    · have hig : o.ignore = false := by
        cases ho : o.ignore with
        | false => rfl
        | true => exact absurd rfl (h ho _ List.mem_cons_self)
      cases op <;> simp [changeOf, hig]
    · cases op <;> simp only [changeOf, List.map_cons, hmap] <;> rfl

/-- one record: applied if the call returns, nothing changed if it raises -/
theorem exec_step (hs : Serves dir contents peer) (env : Api.Env V R) (embed : LVal → V) (l : Link Received.Decoded S) (hr : SessionP.Ready l.st) (r : Spec.Ldif.Record) (op : Laurelin.Ldif.Op) (hm : Spec.Ldif.Means env.ldif r op)
    (hi : NoneDropped env.opts r) :
    let x := Api.execLdif codec (fun d => d.1.1) peer env embed l op
    (∀ ret, x.2 = .ok ret → Applied dir (contents l.peer) r (contents x.1.peer) ∧ Returned env.lower r ret ∧ SessionP.Ready x.1.st) ∧ (∀ e, x.2 = .error e → contents x.1.peer = contents l.peer) := by
  dsimp only
  have key : ∀ method ctrls c, Api.callOf (V := V) op = some (method, ctrls, c) →
      (∀ ret d', Effect dir (env.withKwds embed method ctrls) (contents l.peer) c (.ok ret) d' → Applied dir (contents l.peer) r d' ∧ Returned env.lower r ret) →
      (∀ ret, (Api.execLdif codec (fun d => d.1.1) peer env embed l op).2 = .ok ret →
        Applied dir (contents l.peer) r (contents (Api.execLdif codec (fun d => d.1.1) peer env embed l op).1.peer) ∧ Returned env.lower r ret ∧ SessionP.Ready (Api.execLdif codec (fun d => d.1.1) peer env embed l op).1.st) ∧
      (∀ e, (Api.execLdif codec (fun d => d.1.1) peer env embed l op).2 = .error e → contents (Api.execLdif codec (fun d => d.1.1) peer env embed l op).1.peer = contents l.peer) := by
    intro method ctrls c hc hE
    have hx : Api.execLdif codec (fun d => d.1.1) peer env embed l op = Api.call codec (fun d => d.1.1) peer (env.withKwds embed method ctrls) l c := by
      unfold Api.execLdif
      rw [hc]
    rw [hx]
    obtain ⟨h1, h2⟩ := c90_call hs (env.withKwds embed method ctrls) l hr c
    refine ⟨fun ret hret => ?_, fun e he => ?_⟩
    · rw [hret] at h1
      obtain ⟨k1, k2⟩ := hE ret _ h1
      exact ⟨k1, k2, h2 (by rw [hret]; exact nofun) (by rw [hret]; exact nofun)⟩
    · rw [he] at h1
      exact h1
  obtain ⟨dn, cs, change⟩ := r
  cases change with
  | add attrs =>
    cases op with
    | add dn' d ctrls =>
      obtain ⟨rfl, _, hn, hne, hd⟩ := hm
      obtain ⟨g1, g2⟩ := grouped attrs d hn hne hd
      refine key (str "add") ctrls _ rfl (fun ret d' hE => ?_)
      obtain ⟨e1, obj, rfl, e2⟩ := hE
      refine ⟨.inl ⟨_, ⟨d.map (fun kv => (kv.1, (kv.2.map Api.valOf).map (·.bytes))), ?_, ?_, ?_, ?_⟩, e1⟩, obj, rfl, ?_⟩
      · rw [List.map_map]
        exact hn
      · intro a
        rw [List.map_map]
        exact g1 a
      · intro kv hkv
        obtain ⟨kv0, h0, rfl⟩ := List.mem_map.1 hkv
        dsimp only
        rw [g2 kv0 h0, vals_text]
      · unfold Spec.PatternsS.addOp
        rw [List.map_map, List.map_map]
        rfl
      · intro hinj a ha
        obtain ⟨kv, hkv, hka⟩ := List.mem_map.1 ((g1 a.1).2 (List.mem_map.2 ⟨a, ha, rfl⟩))
        have hin : ∀ kv ∈ d, ∃ ai ∈ attrs, ai.1 = kv.1 := by
          intro kv hkv
          obtain ⟨ai, h1, h2⟩ := List.mem_map.1 ((g1 kv.1).1 (List.mem_map.2 ⟨kv, hkv, rfl⟩))
          exact ⟨ai, h1, h2⟩
        have hnd : ((d.map (fun kv => (kv.1, kv.2.map Api.valOf))).map (fun kv => env.lower kv.1)).Nodup := by
          rw [List.map_map]
          have hp : d.Pairwise (fun x y => x.1 ≠ y.1) := List.pairwise_map.1 hn
          refine List.pairwise_map.2 (List.Pairwise.imp_of_mem (fun {x y} hx hy hxy heq => ?_) hp)
          obtain ⟨x1, hx1, hx2⟩ := hin x hx
          obtain ⟨y1, hy1, hy2⟩ := hin y hy
          exact hxy (by rw [← hx2, ← hy2]; exact hinj x1 hx1 y1 hy1 (by rw [hx2, hy2]; exact heq))
        have := (e2 hnd).1 (kv.1, kv.2.map Api.valOf) (List.mem_map.2 ⟨kv, hkv, rfl⟩)
        dsimp only at this
        rw [← hka]
        refine this.trans ?_
        rw [g2 kv hkv, List.map_map]
        rfl
    | delete _ _ => exact hm.elim
    | modify _ _ _ => exact hm.elim
    | modDn _ _ _ _ _ => exact hm.elim
  | delete =>
    cases op with
    | delete dn' ctrls =>
      obtain ⟨rfl, _⟩ := hm
      refine key (str "delete") ctrls _ rfl (fun ret d' hE => ?_)
      exact ⟨.inl ⟨_, rfl, hE.1⟩, hE.2⟩
    | add _ _ _ => exact hm.elim
    | modify _ _ _ => exact hm.elim
    | modDn _ _ _ _ _ => exact hm.elim
  | modify mods =>
    cases op with
    | modify dn' ms ctrls =>
      obtain ⟨rfl, _, rfl⟩ := hm
      refine key (str "modify") ctrls _ rfl (fun ret d' hE => ?_)
      have hsent := mods_sent env.opts mods (fun h => hi h mods rfl)
      obtain ⟨hE, hret⟩ := hE
      refine ⟨?_, hret⟩
      have hE : (_ = [] ∧ d' = contents l.peer) ∨ (_ ≠ [] ∧ dir.updated (contents l.peer) (Spec.OverWireS.modifyOp dn.value _) d') := hE
      erw [hsent] at hE
      rcases hE with ⟨h1, h2⟩ | ⟨h1, h2⟩
      · exact .inr ⟨fun op h => h.1 (List.map_eq_nil_iff.1 h1), h2⟩
      · exact .inl ⟨_, ⟨fun h => h1 (by rw [h]; rfl), rfl⟩, h2⟩
    | add _ _ _ => exact hm.elim
    | delete _ _ => exact hm.elim
    | modDn _ _ _ _ _ => exact hm.elim
  | rename moddn rdn old sup =>
    cases op with
    | modDn dn' rdn' clean par ctrls =>
      obtain ⟨rfl, _, rfl, rfl, rfl⟩ := hm
      cases sup with
      | none =>
        refine key (str "mod_dn") ctrls _ rfl (fun ret d' hE => ?_)
        exact ⟨.inl ⟨_, rfl, hE.1⟩, hE.2⟩
      | some p =>
        refine key (str "mod_dn") ctrls _ rfl (fun ret d' hE => ?_)
        exact ⟨.inl ⟨_, rfl, hE.1⟩, hE.2⟩
    | add _ _ _ => exact hm.elim
    | delete _ _ => exact hm.elim
    | modify _ _ _ => exact hm.elim

/-- the records one after the other -/
theorem ops_step (hs : Serves dir contents peer) (env : Api.Env V R) (embed : LVal → V) (rs : List Spec.Ldif.Record) (hi : ∀ r ∈ rs, NoneDropped env.opts r) (l : Link Received.Decoded S) (hr : SessionP.Ready l.st)
    (ops : List Laurelin.Ldif.Op) (hm : MeansAll env.ldif rs ops) :
    let x := runOps (Api.execLdif codec (fun d => d.1.1) peer env embed) l ops
    (∀ rets, x.2 = .ok rets → AppliedAll dir (contents l.peer) rs (contents x.1.2.peer) ∧ Spec.Pairwise2 (Returned env.lower) rs rets ∧ SessionP.Ready x.1.2.st) ∧
    (∀ e, x.2 = .error e → ∃ first r rest, rs = first ++ r :: rest ∧ AppliedAll dir (contents l.peer) first (contents x.1.2.peer)) := by
  induction rs generalizing l ops with
  | nil =>
    cases ops with
    | nil => exact ⟨(fun rets h => by cases h; exact ⟨.nil _, .nil, hr⟩), (fun e h => by cases h)⟩
    | cons _ _ => exact hm.elim
  | cons r rs ih =>
    cases ops with
    | nil => exact hm.elim
    | cons op ops =>
      obtain ⟨hm1, hm2⟩ := hm
      obtain ⟨k1, k2⟩ := exec_step hs env embed l hr r op hm1 (hi r List.mem_cons_self)
      dsimp only
      rw [runOps]
      revert k1 k2
      rcases Api.execLdif codec (fun d => d.1.1) peer env embed l op with ⟨l', e | ret⟩
      · intro k1 k2
        dsimp only at k1 k2 ⊢
        refine ⟨(fun rets h => by cases h), fun e' h => ⟨[], r, rs, rfl, ?_⟩⟩
        rw [k2 e rfl]
        exact .nil _
      · intro k1 k2
        obtain ⟨a1, a2, a3⟩ := k1 ret rfl
        obtain ⟨j1, j2⟩ := ih (fun x hx => hi x (List.mem_cons_of_mem _ hx)) l' a3 ops hm2
        dsimp only at j1 j2 a1 ⊢
        revert j1 j2
        rcases runOps (Api.execLdif codec (fun d => d.1.1) peer env embed) l' ops with ⟨⟨done, l2⟩, e | rets⟩
        · intro j1 j2
          dsimp only at j1 j2 ⊢
          refine ⟨(fun rets h => by cases h), fun e' h => ?_⟩
          obtain ⟨first, r', rest, rfl, h4⟩ := j2 e rfl
          exact ⟨r :: first, r', rest, rfl, .cons a1 h4⟩
        · intro j1 j2
          dsimp only at j1 j2 ⊢
          refine ⟨fun rets' h => ?_, (fun e' h => by cases h)⟩
          cases h
          obtain ⟨h1, h2, h3⟩ := j1 rets rfl
          exact ⟨.cons a1 h1, .cons a2 h2, h3⟩


/-! ## Against a willing server -/

theorem exchange_next (env : Api.Env V R) (l : Link Received.Decoded S) (c : Rfc4511.Call) : (Api.exchange codec (fun d => d.1.1) peer env l c).1.st.next = l.st.next + 1 := by
  unfold Api.exchange
  cases hs : send l.st.next c.op env.wire with
  | none => rfl
  | some bs =>
    dsimp only
    unfold Session.request
    rw [hs]
    dsimp only
    rcases Net.recvOne codec l.st.next { l.st.sock with chunks := l.st.sock.chunks ++ (peer l.peer bs).2 } with ⟨o, s⟩
    cases o <;> rfl

theorem plain_kwds (env : Api.Env V R) (embed : LVal → V) (method : Str) : env.withKwds embed method [] = env.plain := rfl

theorem plain_usable (env : Api.Env V R) (hu : Usable env) : Usable env.plain := ⟨hu.bound, hu.adding, hu.modifying, none, rfl, nofun⟩

theorem no_ctrls (env : Laurelin.Ldif.Env) (ctrls : PDict Str Laurelin.Ldif.Ctrl) (h : Spec.Ldif.CtrlsMean env [] ctrls) : ctrls = [] := by
  cases ctrls with
  | nil => rfl
  | cons x xs =>
    have := h.2 x.1
    simp [PDict.get?] at this

/-- one record without controls -/
theorem exec_done (hw : Willing dir contents peer) (env : Api.Env V R) (hu : Usable env) (embed : LVal → V) (l : Link Received.Decoded S) (hr : SessionP.Ready l.st) (r : Spec.Ldif.Record) (hc : r.controls = [])
    (op : Laurelin.Ldif.Op) (hm : Spec.Ldif.Means env.ldif r op) (hi : NoneDropped env.opts r) (he : env.opts.error = true → ∀ mods, r.change = .modify mods → ∀ m ∈ mods, m.vals ≠ [])
    (hp : ∀ op, Asked r op → Possible dir (contents l.peer) l.st.next op none) :
    let x := Api.execLdif codec (fun d => d.1.1) peer env embed l op
    (∃ ret, x.2 = .ok ret) ∧ ((∃ op, Asked r op) → x.1.st.next = l.st.next + 1) ∧ ((∀ op, ¬ Asked r op) → x.1.st.next = l.st.next) := by
  have hu' := plain_usable env hu
  have hb := hu'.bound
  have hk := (usable_ok env.plain hu').1
  dsimp only
  obtain ⟨dn, cs, change⟩ := r
  subst hc
  cases change with
  | add attrs =>
    cases op with
    | add dn' d ctrls =>
      obtain ⟨rfl, hcm, hn, hne, hd⟩ := hm
      have := no_ctrls _ _ hcm
      subst this
      obtain ⟨g1, g2⟩ := grouped attrs d hn hne hd
      have ha : Asked ⟨dn, [], .add attrs⟩ (.addRequest (utf8Enc dn.value) ((d.map (fun kv => (kv.1, kv.2.map Api.valOf))).map Spec.Wire.ofAttr)) := by
        refine ⟨d.map (fun kv => (kv.1, (kv.2.map Api.valOf).map (·.bytes))), ?_, ?_, ?_, ?_⟩
        · rw [List.map_map]
          exact hn
        · intro a
          rw [List.map_map]
          exact g1 a
        · intro kv hkv
          obtain ⟨kv0, h0, rfl⟩ := List.mem_map.1 hkv
          dsimp only
          rw [g2 kv0 h0, vals_text]
        · unfold Spec.PatternsS.addOp
          rw [List.map_map, List.map_map]
          rfl
      have hcall := c93_call hw env.plain hu' l hr (.add dn.value (d.map (fun kv => (kv.1, kv.2.map Api.valOf)))) (hp _ ha)
      refine ⟨hcall, fun _ => ?_, fun h => absurd ha (h _)⟩
      show (Api.call codec (fun d => d.1.1) peer env.plain l (.add dn.value (d.map (fun kv => (kv.1, kv.2.map Api.valOf))))).1.st.next = _
      simp only [Api.call, ldapAdd, hb, Bool.false_eq_true, if_false, hk, accepts _ hu'.adding]
      cases Api.unitOf (Api.exchange codec (fun d => d.1.1) peer env.plain l (.add dn.value (d.map (fun kv => (kv.1, kv.2.map Api.valOf))))).2 <;> exact exchange_next _ _ _
    | delete _ _ => exact hm.elim
    | modify _ _ _ => exact hm.elim
    | modDn _ _ _ _ _ => exact hm.elim
  | delete =>
    cases op with
    | delete dn' ctrls =>
      obtain ⟨rfl, hcm⟩ := hm
      have := no_ctrls _ _ hcm
      subst this
      refine ⟨c93_call hw env.plain hu' l hr (.delete dn.value) (hp _ rfl), fun _ => ?_, fun h => absurd rfl (h _)⟩
      show (Api.call codec (fun d => d.1.1) peer env.plain l (.delete dn.value)).1.st.next = _
      simp only [Api.call, hb, Bool.false_eq_true, if_false, hk]
      exact exchange_next _ _ _
    | add _ _ _ => exact hm.elim
    | modify _ _ _ => exact hm.elim
    | modDn _ _ _ _ _ => exact hm.elim
  | modify mods =>
    cases op with
    | modify dn' ms ctrls =>
      obtain ⟨rfl, hcm, rfl⟩ := hm
      have := no_ctrls _ _ hcm
      subst this
      have hsent := mods_sent env.opts mods (fun h => hi h mods rfl)
      have he' : env.plain.opts.error = true → ∀ m ∈ mods, m.vals ≠ [] := fun h => he h mods rfl
      clear he hi
      have hmods : ∀ md ∈ ((mods.map (fun m => (⟨m.op, m.name, .list (m.vals.map (fun i => LVal.text i.value))⟩ : Mod LVal))).map (fun md => (⟨md.op, md.attr, match md.vals with
          | .deleteAll => .deleteAll
          | .list l => .list (l.map Api.valOf)⟩ : Mod AVal))), md.vals ≠ .deleteAll ∧ (env.plain.opts.error = true → md.vals ≠ .list []) := by
        intro md hmd
        rw [List.map_map] at hmd
        obtain ⟨m, hm, rfl⟩ := List.mem_map.1 hmd
        refine ⟨nofun, fun h h0 => ?_⟩
        have := he' h m hm
        simp only [Function.comp, Vals.list.injEq, List.map_eq_nil_iff] at h0
        exact this h0
      have hlen : ((mods.map (fun m => (⟨m.op, m.name, .list (m.vals.map (fun i => LVal.text i.value))⟩ : Mod LVal))).map (fun md => (⟨md.op, md.attr, match md.vals with
          | .deleteAll => .deleteAll
          | .list l => .list (l.map Api.valOf)⟩ : Mod AVal))) = [] ↔ mods = [] := by
        rw [List.map_eq_nil_iff, List.map_eq_nil_iff]
      show (∃ ret, (Api.call codec (fun d => d.1.1) peer env.plain l (.modify dn.value ((mods.map (fun m => (⟨m.op, m.name, .list (m.vals.map (fun i => LVal.text i.value))⟩ : Mod LVal))).map (fun md => (⟨md.op, md.attr, match md.vals with
          | .deleteAll => .deleteAll
          | .list l => .list (l.map Api.valOf)⟩ : Mod AVal))) none)).2 = .ok ret) ∧ ((∃ op, Asked ⟨dn, [], .modify mods⟩ op) → (Api.call codec (fun d => d.1.1) peer env.plain l (.modify dn.value ((mods.map (fun m => (⟨m.op, m.name, .list (m.vals.map (fun i => LVal.text i.value))⟩ : Mod LVal))).map (fun md => (⟨md.op, md.attr, match md.vals with
          | .deleteAll => .deleteAll
          | .list l => .list (l.map Api.valOf)⟩ : Mod AVal))) none)).1.st.next = l.st.next + 1) ∧ ((∀ op, ¬ Asked ⟨dn, [], .modify mods⟩ op) → (Api.call codec (fun d => d.1.1) peer env.plain l (.modify dn.value ((mods.map (fun m => (⟨m.op, m.name, .list (m.vals.map (fun i => LVal.text i.value))⟩ : Mod LVal))).map (fun md => (⟨md.op, md.attr, match md.vals with
          | .deleteAll => .deleteAll
          | .list l => .list (l.map Api.valOf)⟩ : Mod AVal))) none)).1.st.next = l.st.next)
      revert hsent hmods hlen
      generalize ((mods.map (fun m => (⟨m.op, m.name, .list (m.vals.map (fun i => LVal.text i.value))⟩ : Mod LVal))).map (fun md => (⟨md.op, md.attr, match md.vals with
          | .deleteAll => .deleteAll
          | .list l => .list (l.map Api.valOf)⟩ : Mod AVal))) = ms
      intro hsent hmods hlen
      have hA : mods ≠ [] → Asked ⟨dn, [], .modify mods⟩ (Spec.OverWireS.modifyOp dn.value (ms.filterMap (changeOf env.plain.opts))) := by
        intro hne
        refine ⟨hne, ?_⟩
        show Spec.OverWireS.modifyOp dn.value (ms.filterMap (changeOf env.opts)) = _
        rw [hsent]
      refine ⟨⟨_, modify_done hw env.plain hu' l hr dn.value ms none (fun md hmd _ => (hmods md hmd).1) (fun h md hmd _ => (hmods md hmd).2 h) (fun hne => hp _ (hA ?_))⟩, ?_, ?_⟩
      · intro h0
        rw [hlen.2 h0] at hne
        exact hne rfl
      · rintro ⟨_, hne, _⟩
        have hpos : ms.length > 0 := by
          cases ms with
          | nil => exact absurd (hlen.1 rfl) hne
          | cons _ _ => exact Nat.succ_pos _
        obtain ⟨cs, hcs⟩ := builds env.plain.opts ms (fun md hmd _ => (hmods md hmd).1) (fun h md hmd _ => (hmods md hmd).2 h)
        have hsent' := changes_sent env.plain.opts ms cs hcs
        have hl : cs.length > 0 := by
          cases cs with
          | nil =>
            have h0 : ms.filterMap (changeOf env.opts) = [] := hsent'.symm
            rw [hsent, List.map_eq_nil_iff] at h0
            exact absurd h0 hne
          | cons _ _ => exact Nat.succ_pos _
        simp only [Api.call, ldapModify, if_pos hpos, hb, Bool.false_eq_true, if_false, accepts _ hu'.modifying, hcs, if_pos hl, hk]
        exact exchange_next _ _ _
      · intro hno
        have h0 : mods = [] := Classical.byContradiction (fun h => hno _ (hA h))
        have := hlen.2 h0
        subst this
        rfl
    | add _ _ _ => exact hm.elim
    | delete _ _ => exact hm.elim
    | modDn _ _ _ _ _ => exact hm.elim
  | rename moddn rdn old sup =>
    cases op with
    | modDn dn' rdn' clean par ctrls =>
      obtain ⟨rfl, hcm, rfl, rfl, rfl⟩ := hm
      have := no_ctrls _ _ hcm
      subst this
      cases sup with
      | none =>
        refine ⟨c93_call hw env.plain hu' l hr (.modDn dn.value rdn.value clean none) (hp _ rfl), fun _ => ?_, fun h => absurd rfl (h _)⟩
        show (Api.call codec (fun d => d.1.1) peer env.plain l (.modDn dn.value rdn.value clean none)).1.st.next = _
        simp only [Api.call, Api.sendModDn, ldapModDn, hb, Bool.false_eq_true, if_false, hk]
        exact exchange_next _ _ _
      | some p =>
        refine ⟨c93_call hw env.plain hu' l hr (.modDn dn.value rdn.value clean (some p.value)) (hp _ rfl), fun _ => ?_, fun h => absurd rfl (h _)⟩
        show (Api.call codec (fun d => d.1.1) peer env.plain l (.modDn dn.value rdn.value clean (some p.value))).1.st.next = _
        simp only [Api.call, Api.sendModDn, ldapModDn, hb, Bool.false_eq_true, if_false, hk]
        exact exchange_next _ _ _
    | add _ _ _ => exact hm.elim
    | delete _ _ => exact hm.elim
    | modify _ _ _ => exact hm.elim

theorem ops_done (hw : Willing dir contents peer) (env : Api.Env V R) (hu : Usable env) (embed : LVal → V) (rs : List Spec.Ldif.Record) (hc : ∀ r ∈ rs, r.controls = []) (hi : ∀ r ∈ rs, NoneDropped env.opts r)
    (he : env.opts.error = true → ∀ r ∈ rs, ∀ mods, r.change = .modify mods → ∀ m ∈ mods, m.vals ≠ []) (l : Link Received.Decoded S) (hr : SessionP.Ready l.st)
    (ops : List Laurelin.Ldif.Op) (hm : MeansAll env.ldif rs ops) (hd : DoableAll dir (contents l.peer) l.st.next rs) :
    ∃ rets, (runOps (Api.execLdif codec (fun d => d.1.1) peer env embed) l ops).2 = .ok rets := by
  induction rs generalizing l ops with
  | nil =>
    cases ops with
    | nil => exact ⟨[], rfl⟩
    | cons _ _ => exact hm.elim
  | cons r rs ih =>
    cases ops with
    | nil => exact hm.elim
    | cons op ops =>
      obtain ⟨hm1, hm2⟩ := hm
      obtain ⟨hd1, hd2⟩ := hd
      obtain ⟨k1, _⟩ := exec_step (serves hw) env embed l hr r op hm1 (hi r List.mem_cons_self)
      obtain ⟨⟨ret, k2⟩, k3, k4⟩ := exec_done hw env hu embed l hr r (hc r List.mem_cons_self) op hm1 (hi r List.mem_cons_self) (fun h => he h r List.mem_cons_self) hd1
      obtain ⟨a1, _, a3⟩ := k1 ret k2
      rw [runOps]
      revert k2 k3 k4 a1 a3
      clear k1
      rcases Api.execLdif codec (fun d => d.1.1) peer env embed l op with ⟨l', x⟩
      intro k2 k3 k4 a1 a3
      dsimp only at k2 k3 k4 a1 a3 ⊢
      subst k2
      have hnext : DoableAll dir (contents l'.peer) l'.st.next rs := by
        by_cases hA : ∃ op, Asked r op
        · rw [k3 hA]
          exact (hd2 _ a1).1 hA
        · have hA : ∀ op, ¬ Asked r op := fun op h => hA ⟨op, h⟩
          rw [k4 hA]
          exact (hd2 _ a1).2 hA
      obtain ⟨rets, hrets⟩ := ih (fun x hx => hc x (List.mem_cons_of_mem _ hx)) (fun x hx => hi x (List.mem_cons_of_mem _ hx)) (fun h x hx => he h x (List.mem_cons_of_mem _ hx)) l' a3 ops hm2 hnext
      dsimp only
      revert hrets
      rcases runOps (Api.execLdif codec (fun d => d.1.1) peer env embed) l' ops with ⟨q, y⟩
      intro hrets
      dsimp only at hrets
      subst hrets
      exact ⟨ret :: rets, rfl⟩

end
end AppP
open Laurelin.Wire WireP WireR OverWire OverWireP DirP WillP AppP Spec.OverWireS Spec.DirectoryS Spec.WillingS Spec.ApplyS
open Laurelin.Spec.Ldif (Item Datum Ctl Separated FoldOf file Supported runOps)
section
variable {V R S D : Type} {dir : Directory D} {contents : S → D} {peer : Peer S}

/-- **C94.** On a server of the directory, from any state of the connection between calls: if `process_ldif` returns, every record of the file has been applied, in order, and one result is returned for each;
if it raises, some records at the start of the file have been applied, in order, and nothing else has changed. Files: optional version line, records separated by empty lines, lines folded anywhere, values in
clear or in base64, controls that are known or not critical (`Record.Good` and `Separated` say for which forms of values and separators the reader is right, see C44). -/
theorem c94_applied (hs : Serves dir contents peer) (env : Api.Env V R) (embed : LVal → V) (l : Link Received.Decoded S) (hr : SessionP.Ready l.st) (version : Bool) (recs : List (Spec.Ldif.Record × Nat))
    (hsep : Separated recs) (hg : ∀ rk ∈ recs, rk.1.Good) (hsup : ∀ rk ∈ recs, ∀ c ∈ rk.1.controls, Supported env.ldif c) (hne : version = true ∨ recs ≠ []) (hi : ∀ rk ∈ recs, NoneDropped env.opts rk.1)
    (text : Str) (ht : FoldOf text (file version recs)) :
    let x := Api.processLdif codec (fun d => d.1.1) peer env embed l text
    (∀ rets, x.2 = .ok rets → AppliedAll dir (contents l.peer) (recs.map Prod.fst) (contents x.1.peer) ∧ Spec.Pairwise2 (Returned env.lower) (recs.map Prod.fst) rets ∧ SessionP.Ready x.1.st) ∧
    (∀ e, x.2 = .error e → ∃ first r rest, recs.map Prod.fst = first ++ r :: rest ∧ AppliedAll dir (contents l.peer) first (contents x.1.peer)) := by
  obtain ⟨ops, h1, h2⟩ := c44_applied_partial (σ := Link Received.Decoded S) (ρ := Api.Ret R) env.ldif version recs hsep hg hsup hne text ht
  unfold Api.processLdif
  rw [h2]
  exact ops_step hs env embed _ (fun r hr' => by
    obtain ⟨rk, hrk, rfl⟩ := List.mem_map.1 hr'
    exact hi rk hrk) l hr ops h1

/-- **C94 (controls that are not known).** If a record has a critical control that is not known, the call raises; the record and those after it are not applied, those before it are (`LDAPSupportError`), unless one of them failed. -/
theorem c94_unknown_critical (hs : Serves dir contents peer) (env : Api.Env V R) (embed : LVal → V) (l : Link Received.Decoded S) (hr : SessionP.Ready l.st) (version : Bool) (l1 : List (Spec.Ldif.Record × Nat))
    (r : Spec.Ldif.Record) (k : Nat) (l2 : List (Spec.Ldif.Record × Nat)) (hsep : Separated (l1 ++ (r, k) :: l2)) (hg : ∀ rk ∈ l1 ++ (r, k) :: l2, rk.1.Good)
    (hsup : ∀ rk ∈ l1, ∀ c ∈ rk.1.controls, Supported env.ldif c) (hun : ∃ c ∈ r.controls, ¬ Supported env.ldif c) (hi : ∀ rk ∈ l1, NoneDropped env.opts rk.1)
    (text : Str) (ht : FoldOf text (file version (l1 ++ (r, k) :: l2))) :
    let x := Api.processLdif codec (fun d => d.1.1) peer env embed l text
    ∃ e, x.2 = .error e ∧ ((e = .ldapSupport ∧ AppliedAll dir (contents l.peer) (l1.map Prod.fst) (contents x.1.peer)) ∨
      ∃ first r' rest, l1.map Prod.fst = first ++ r' :: rest ∧ AppliedAll dir (contents l.peer) first (contents x.1.peer)) := by
  obtain ⟨ops, h1, h2⟩ := c44_unknown_critical (σ := Link Received.Decoded S) (ρ := Api.Ret R) env.ldif version l1 r k l2 hsep hg hsup hun text ht
  obtain ⟨h3, h4⟩ := h2 (Api.execLdif codec (fun d => d.1.1) peer env embed) l
  obtain ⟨k1, k2⟩ := ops_step hs env embed _ (fun r hr' => by
    obtain ⟨rk, hrk, rfl⟩ := List.mem_map.1 hr'
    exact hi rk hrk) l hr ops h1
  unfold Api.processLdif
  dsimp only
  rw [h3]
  cases hx : (runOps (Api.execLdif codec (fun d => d.1.1) peer env embed) l ops).2 with
  | ok rets => exact ⟨.ldapSupport, (h4 _).2 (.inr ⟨by rw [hx]; rfl, rfl⟩), .inl ⟨rfl, (k1 rets hx).1⟩⟩
  | error e => exact ⟨e, (h4 e).2 (.inl hx), .inr (k2 e hx)⟩

/-- **C94 (line ends).** With CR LF line ends the effect is the same, octet for octet. -/
theorem c94_crlf (env : Api.Env V R) (embed : LVal → V) (l : Link Received.Decoded S) (text : Str) (hr : '\r' ∉ text) (hu : ∀ a b, Laurelin.Ldif.unfold text ≠ a ++ ':' :: '<' :: b) :
    Api.processLdif codec (fun d => d.1.1) peer env embed l (crlf text) = Api.processLdif codec (fun d => d.1.1) peer env embed l text := by
  unfold Api.processLdif
  rw [c44_crlf env.ldif _ l text hr hu]

/-- **C94 (willing servers).** If every record asks for an update that is possible where the records before it have led, and the messages can be written, `process_ldif` returns. -/
theorem c94_done (hw : Willing dir contents peer) (env : Api.Env V R) (hu : Usable env) (embed : LVal → V) (l : Link Received.Decoded S) (hr : SessionP.Ready l.st) (version : Bool)
    (recs : List (Spec.Ldif.Record × Nat)) (hsep : Separated recs) (hg : ∀ rk ∈ recs, rk.1.Good) (hc : ∀ rk ∈ recs, rk.1.controls = []) (hne : version = true ∨ recs ≠ [])
    (hi : env.opts.ignore = true ∨ env.opts.error = true → ∀ rk ∈ recs, ∀ mods, rk.1.change = .modify mods → ∀ m ∈ mods, m.vals ≠ []) (text : Str) (ht : FoldOf text (file version recs))
    (hd : DoableAll dir (contents l.peer) l.st.next (recs.map Prod.fst)) :
    ∃ rets, (Api.processLdif codec (fun d => d.1.1) peer env embed l text).2 = .ok rets := by
  obtain ⟨ops, h1, h2⟩ := c44_applied_partial (σ := Link Received.Decoded S) (ρ := Api.Ret R) env.ldif version recs hsep hg (fun rk hrk c hcm => by
    rw [hc rk hrk] at hcm
    cases hcm) hne text ht
  unfold Api.processLdif
  rw [h2]
  refine ops_done hw env hu embed _ ?_ ?_ ?_ l hr ops h1 hd
  · intro r hr'
    obtain ⟨rk, hrk, rfl⟩ := List.mem_map.1 hr'
    exact hc rk hrk
  · intro r hr' h
    obtain ⟨rk, hrk, rfl⟩ := List.mem_map.1 hr'
    exact hi (.inl h) rk hrk
  · intro h r hr'
    obtain ⟨rk, hrk, rfl⟩ := List.mem_map.1 hr'
    exact hi (.inr h) rk hrk
end

/-! ## A file of two records: the entry is created, then changed -/
namespace AppP
open PatP EntP
set_option maxRecDepth 100000
abbrev it (s : Str) : Item := ⟨s, false⟩
def rec1 : Spec.Ldif.Record := ⟨it (str "o"), [], .add [(str "CN", .text (it (str "a"))), (str "CN", .octets [255])]⟩
def rec2 : Spec.Ldif.Record := ⟨it (str "O"), [], .modify [⟨.add, str "cn", [it (str "c")]⟩]⟩

def text2 : Str := str "version: 1\ndn: o\nchangetype: add\nCN: a\nCN:: /w==\n\ndn: O\nchangetype: modify\nadd: cn\ncn: c\n-\n"

theorem file_text : file true [(rec1, 2), (rec2, 1)] = text2 := by decide

theorem it_good (c : Char) (h : Laurelin.inClass pySpace c = false ∧ Laurelin.Ldif.isBreak c = false ∧ c ≠ ':') : (it [c]).Good := by
  refine ⟨fun x hx => ?_, fun x hx => ?_, fun _ => ⟨nofun, fun hx => ?_, fun x hx => ?_, fun a b hab => ?_⟩⟩
  · cases hx
    unfold Spec.Ldif.isSpace
    rw [h.1]
    exact nofun
  · have hx : some c = some x := hx
    cases hx
    unfold Spec.Ldif.isSpace
    rw [h.1]
    exact nofun
  · cases hx
    exact h.2.2 rfl
  · rw [List.mem_singleton.1 hx]
    exact h.2.1
  · have := congrArg List.length hab
    simp at this
    omega

theorem recs_good : ∀ rk ∈ [(rec1, 2), (rec2, 1)], rk.1.Good := by
  intro rk hrk
  simp only [List.mem_cons, List.not_mem_nil, or_false] at hrk
  have hn : ∀ a : Str, (a ≠ [] ∧ a.head? ≠ some '#' ∧ ∀ c ∈ a, ¬ (inClass pySpace c = true) ∧ c ≠ ':' ∧ c ≠ ';') → Spec.Ldif.GoodName a := fun a h => h
  rcases hrk with rfl | rfl
  · refine ⟨it_good 'o' (by decide), nofun, fun ai hai => ?_⟩
    simp only [List.mem_cons, List.not_mem_nil, or_false] at hai
    rcases hai with rfl | rfl
    · exact ⟨hn _ (by decide), it_good 'a' (by decide)⟩
    · refine ⟨hn _ (by decide), (fun s hs => by rw [show Codec.utf8Dec [255] = none by decide +kernel] at hs; cases hs), fun _ x hx => ?_⟩
      rcases hx with hx | hx <;> cases hx <;> decide
  · refine ⟨it_good 'O' (by decide), nofun, fun m hm => ?_⟩
    rw [List.mem_singleton.1 hm]
    refine ⟨hn _ (by decide), nofun, fun i hi => ?_⟩
    rw [List.mem_singleton.1 hi]
    exact ⟨it_good 'c' (by decide), rfl, by decide⟩

theorem asked1 (op : Spec.Wire.Op) (h : Asked rec1 op) : op = Spec.PatternsS.addOp (str "o") [(str "CN", [[97], [255]])] := by
  obtain ⟨named, h1, h2, h3, rfl⟩ := h
  have hmem : ∀ kv ∈ named, kv = (str "CN", [[97], [255]]) := by
    intro kv hkv
    have h4 := (h2 kv.1).1 (List.mem_map.2 ⟨kv, hkv, rfl⟩)
    simp only [List.map_cons, List.map_nil, List.mem_cons, List.not_mem_nil, or_false, or_self] at h4
    have h5 := h3 kv hkv
    rw [h4] at h5
    exact Prod.ext h4 h5
  have hcn : str "CN" ∈ named.map Prod.fst := (h2 _).2 (by decide)
  cases named with
  | nil => cases hcn
  | cons kv rest =>
    have hk := hmem kv List.mem_cons_self
    cases rest with
    | nil => rw [hk]; rfl
    | cons kv2 rest =>
      have hk2 := hmem kv2 (by simp)
      rw [hk, hk2] at h1
      simp at h1

theorem asked2 (op : Spec.Wire.Op) (h : Asked rec2 op) : op = Spec.OverWireS.modifyOp (str "O") [⟨.add, str "cn", [[99]]⟩] := h.2

theorem made1 : Asked rec1 (Spec.PatternsS.addOp (str "o") [(str "CN", [[97], [255]])]) := by
  refine ⟨[(str "CN", [[97], [255]])], by decide, fun a => ?_, fun kv hkv => ?_, rfl⟩
  · simp
  · rw [List.mem_singleton.1 hkv]
    rfl

theorem ent_inj (vs vs' : List Bytes) (h : ent vs = ent vs') : vs = vs' := congrFun h (str "cn")

theorem entry_put (vs : List Bytes) : Spec.Entry.put lc (ent vs) (str "cn") [[97], [255], [99]] = ent [[97], [255], [99]] := by
  funext x
  have h1 : lc (str "cn") = str "cn" := by decide
  simp only [Entry.put, h1, ent]
  by_cases hx : x = str "cn" <;> simp [hx]

theorem added : srvModify lc eqb (ent [[97], [255]]) [⟨.add, str "cn", [[99]]⟩] = .ok (ent [[97], [255], [99]]) := by
  have h1 : lc (str "cn") = str "cn" := by decide
  simp only [srvModify, srvChange, h1]
  rw [show ent [[97], [255]] (str "cn") = [[97], [255]] from rfl, show srvAdd (eqb (str "cn")) [[97], [255]] [[99]] = .ok [[97], [255], [99]] by decide]
  exact congrArg _ (entry_put _)

theorem first_step (d' : Option (List Bytes)) (h : Applied pDir none rec1 d') : d' = some [[97], [255]] := by
  rcases h with ⟨op, h1, h2⟩ | ⟨h1, _⟩
  · rw [asked1 op h1] at h2
    rcases h2 with ⟨_, _, _, _, _, h3, h4, _⟩ | ⟨dn, name, vs, _, _, h3, _, rfl⟩
    · cases h4
    · obtain ⟨_, h4⟩ := PatP.addOp_inj _ _ _ _ h3
      cases h4
      rfl
  · exact absurd made1 (h1 _)

theorem second_step (d' : Option (List Bytes)) (h : Applied pDir (some [[97], [255]]) rec2 d') : d' = some [[97], [255], [99]] := by
  rcases h with ⟨op, h1, h2⟩ | ⟨h1, _⟩
  · rw [asked2 op h1] at h2
    rcases h2 with ⟨dn, cs, vs, vs', _, h3, h4, rfl, h5⟩ | ⟨_, _, _, _, _, h3, _⟩
    · cases h4
      have hdn : str "O" = dn := by
        simp only [Spec.OverWireS.modifyOp, Spec.Wire.Op.modifyRequest.injEq] at h3
        exact utf8_injective _ _ h3.1
      subst hdn
      have := modifyOp_inj _ _ _ h3
      rw [← this, added] at h5
      simp only [Except.ok.injEq] at h5
      rw [ent_inj _ _ h5]
    · cases h3
  · exact absurd ⟨nofun, rfl⟩ (h1 (Spec.OverWireS.modifyOp (str "O") [⟨.add, str "cn", [[99]]⟩]))

theorem recs_doable : DoableAll pDir none 1 [rec1, rec2] := by
  refine ⟨fun op h => ?_, fun d' h => ?_⟩
  · rw [asked1 op h]
    exact ⟨fits_of _ _ _ (by decide +kernel), _, .inr ⟨str "o", str "CN", [[97], [255]], by decide, by decide, rfl, rfl, rfl⟩⟩
  · rw [first_step d' h]
    have hd2 : ∀ d', Applied pDir (some [[97], [255]]) rec2 d' → ((∃ op, Asked rec2 op) → True) ∧ ((∀ op, ¬ Asked rec2 op) → True) := fun _ _ => ⟨fun _ => trivial, fun _ => trivial⟩
    exact ⟨fun _ => ⟨fun op h => by
      rw [asked2 op h]
      exact ⟨fits_of _ _ _ (by decide +kernel), _, .inl ⟨str "O", _, [[97], [255]], [[97], [255], [99]], by decide, rfl, rfl, rfl, added⟩⟩, hd2⟩, fun h => absurd made1 (h _)⟩

end AppP
theorem AppP.applied_nil {D : Type} {dir : DirectoryS.Directory D} (d d' : D) (h : ApplyS.AppliedAll dir d [] d') : d' = d := by
  cases h
  rfl

open PatP AppP in
/-- on a server that has no entry, this text leads to an entry with three values -/
example : let x := Api.processLdif codec (fun d => d.1.1) wPeer DirP.sampleEnv (fun _ => ()) ⟨Session.St.init, none⟩ text2
    x.1.peer = some [[97], [255], [99]] ∧ ∃ rets, x.2 = .ok rets ∧ rets.length = 2 := by
  have hfold : FoldOf text2 (file true [(rec1, 2), (rec2, 1)]) := by
    rw [file_text]
    exact LdifR.foldOf_refl _
  have hsep : Separated [(rec1, 2), (rec2, 1)] := ⟨by decide, trivial⟩
  have hc : ∀ rk ∈ [(rec1, 2), (rec2, 1)], rk.1.controls = [] := by
    intro rk hrk
    simp only [List.mem_cons, List.not_mem_nil, or_false] at hrk
    rcases hrk with rfl | rfl <;> rfl
  have hv : ∀ rk ∈ [(rec1, 2), (rec2, 1)], ∀ mods, rk.1.change = .modify mods → ∀ m ∈ mods, m.vals ≠ [] := by
    intro rk hrk mods hm
    simp only [List.mem_cons, List.not_mem_nil, or_false] at hrk
    rcases hrk with rfl | rfl
    · cases hm
    · cases hm
      intro m hm
      rw [List.mem_singleton.1 hm]
      exact nofun
  obtain ⟨rets, hrets⟩ := c94_done w_willing DirP.sampleEnv w_usable (fun _ => ()) ⟨Session.St.init, none⟩ SessionP.ready_init true _ hsep recs_good hc (.inl rfl) (fun _ => hv) _ hfold recs_doable
  have h := (c94_applied (serves w_willing) DirP.sampleEnv (fun _ => ()) ⟨Session.St.init, none⟩ SessionP.ready_init true _ hsep recs_good (fun rk hrk c hcm => by
    rw [hc rk hrk] at hcm
    cases hcm) (.inl rfl) (fun rk hrk _ => hv rk hrk) _ hfold).1 rets hrets
  obtain ⟨h1, h2, _⟩ := h
  refine ⟨?_, rets, hrets, ?_⟩
  · cases h1 with
    | cons a1 a2 =>
      rw [first_step _ a1] at a2
      cases a2 with
      | cons b1 b2 =>
        rw [second_step _ b1] at b2
        exact AppP.applied_nil _ _ b2
  · cases h2 with
    | cons _ h2 =>
      cases h2 with
      | cons _ h2 => cases h2; rfl

/-! ## A modification that is dropped -/
def AppP.dropRec : Spec.Ldif.Record := ⟨AppP.it (str "o"), [], .modify [⟨.delete, str "cn", []⟩]⟩
def AppP.dropText : Str := str "dn: o\nchangetype: modify\ndelete: cn\n-\n"

set_option maxRecDepth 100000 in
/-- The converse fails on a connection that ignores empty lists: this file asks for the values of `cn` to be removed; whatever the server is, nothing is sent and the call returns as if it had been done. -/
theorem c94_dropped {S : Type} (peer : OverWire.Peer S) (l : OverWire.Link Received.Decoded S) :
    file false [(AppP.dropRec, 1)] = AppP.dropText ∧ ApplyS.Asked AppP.dropRec (Spec.OverWireS.modifyOp (str "o") [⟨.delete, str "cn", []⟩]) ∧
    DirP.sampleEnv.opts.ignore = true ∧ Api.processLdif codec (fun d => d.1.1) peer DirP.sampleEnv (fun _ => ()) l AppP.dropText = (l, .ok [.done]) :=
  ⟨by decide, ⟨nofun, rfl⟩, rfl, rfl⟩

end Laurelin.Props
