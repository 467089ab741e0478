import Verif.Props.ApplyLdif
import Verif.Props.Controls
/-!
# C94: the messages written for an LDIF file
-/
namespace Laurelin.Props
open Laurelin Codec Asn1 Rfc4511 Spec
namespace AppP
open Laurelin.Wire WireP WireR OverWire OverWireP DirP Spec.OverWireS Spec.DirectoryS Spec.ApplyS
open Laurelin.Spec.Ldif (Item Datum Ctl MeansAll runOps)
section
variable {V R S : Type} {peer : Peer S}

/-! ## What is sent -/

theorem exchange_log (env : Api.Env V R) (l : Link Received.Decoded (S × List Bytes)) (c : Rfc4511.Call) :
    let x := Api.exchange codec (fun d => d.1.1) (recorded peer) env l c
    (x.2 = .raises .asn1Error ∧ x.1.peer.2 = l.peer.2) ∨
    ∃ bs o, Spec.Wire.asks c = some o ∧ (Spec.Wire.message l.st.next o env.wire).Valid ∧ (Spec.Wire.message l.st.next o env.wire).enc Spec.Wire.x690 bs ∧ x.1.peer.2 = l.peer.2 ++ [bs] := by
  intro x
  simp only [x, Api.exchange]
  cases hsend : send l.st.next c.op env.wire with
  | none => exact .inl ⟨rfl, rfl⟩
  | some bs =>
    obtain ⟨o, ho, hv, _, henc⟩ := c79_sent _ _ _ _ hsend
    exact .inr ⟨bs, o, ho, hv, henc, rfl⟩

/-- a call that sends one request or nothing; `x`: how it ends -/
def Did (env : Api.Env V R) (l : Link Received.Decoded (S × List Bytes)) (peer : Peer S) (c : Rfc4511.Call) (x : Link Received.Decoded (S × List Bytes) × Except Err (Api.Ret R)) : Prop :=
  (∃ e, x.2 = .error e ∧ x.1 = l) ∨ ((∃ ws, env.ctrls = .ok ws) ∧ x.1 = (Api.exchange codec (fun d => d.1.1) (recorded peer) env l c).1 ∧
    ∀ e, (Api.exchange codec (fun d => d.1.1) (recorded peer) env l c).2 = .raises e → ∃ e', x.2 = .error e')

theorem did_add (env : Api.Env V R) (l : Link Received.Decoded (S × List Bytes)) (dn : Str) (attrs : List (Str × List AVal)) :
    Did env l peer (.add dn attrs) (Api.call codec (fun d => d.1.1) (recorded peer) env l (.add dn attrs)) := by
  unfold Did
  simp only [Api.call, ldapAdd]
  cases hub : env.conn.unbound with
  | true => exact .inl ⟨_, rfl, rfl⟩
  | false =>
    simp only [Bool.false_eq_true, if_false]
    cases hc : env.ctrls with
    | error e =>
      rw [show env.ctrlsOk = .error e by simp only [Api.Env.ctrlsOk, hc]]
      exact .inl ⟨_, rfl, rfl⟩
    | ok ws =>
      rw [show env.ctrlsOk = .ok () by simp only [Api.Env.ctrlsOk, hc]]
      dsimp only
      cases runValidation env.addValidators (dn, CIDict.update env.lower CIDict.empty attrs) with
      | error e => exact .inl ⟨_, rfl, rfl⟩
      | ok _ =>
        refine .inr ⟨⟨ws, rfl⟩, ?_⟩
        dsimp only
        cases ho : (Api.exchange codec (fun d => d.1.1) (recorded peer) env l (.add dn attrs)).2 with
        | returns _ => exact ⟨rfl, nofun⟩
        | raises e => exact ⟨rfl, fun e' _ => ⟨_, rfl⟩⟩
        | waits => exact ⟨rfl, nofun⟩

theorem did_delete (env : Api.Env V R) (l : Link Received.Decoded (S × List Bytes)) (dn : Str) :
    Did env l peer (.delete dn) (Api.call codec (fun d => d.1.1) (recorded peer) env l (.delete dn)) := by
  unfold Did
  simp only [Api.call]
  cases hub : env.conn.unbound with
  | true => exact .inl ⟨_, rfl, rfl⟩
  | false =>
    simp only [Bool.false_eq_true, if_false]
    cases hc : env.ctrls with
    | error e =>
      rw [show env.ctrlsOk = .error e by simp only [Api.Env.ctrlsOk, hc]]
      exact .inl ⟨_, rfl, rfl⟩
    | ok ws =>
      rw [show env.ctrlsOk = .ok () by simp only [Api.Env.ctrlsOk, hc]]
      dsimp only
      refine .inr ⟨⟨ws, rfl⟩, rfl, fun e he => ⟨e, ?_⟩⟩
      rw [he]
      rfl

theorem did_modDn (env : Api.Env V R) (l : Link Received.Decoded (S × List Bytes)) (dn rdn : Str) (clean : Bool) (sup : Option Str) :
    Did env l peer (.modDn ⟨dn, rdn, clean, sup⟩) (Api.call codec (fun d => d.1.1) (recorded peer) env l (.modDn dn rdn clean sup)) := by
  unfold Did
  simp only [Api.call, Api.sendModDn, ldapModDn]
  cases hub : env.conn.unbound with
  | true => exact .inl ⟨_, rfl, rfl⟩
  | false =>
    simp only [Bool.false_eq_true, if_false]
    cases hc : env.ctrls with
    | error e =>
      rw [show env.ctrlsOk = .error e by simp only [Api.Env.ctrlsOk, hc]]
      exact .inl ⟨_, rfl, rfl⟩
    | ok ws =>
      rw [show env.ctrlsOk = .ok () by simp only [Api.Env.ctrlsOk, hc]]
      dsimp only
      refine .inr ⟨⟨ws, rfl⟩, rfl, fun e he => ⟨e, ?_⟩⟩
      rw [he]
      rfl

theorem did_modify (env : Api.Env V R) (l : Link Received.Decoded (S × List Bytes)) (dn : Str) (mods : List (Mod AVal)) :
    let x := Api.call codec (fun d => d.1.1) (recorded peer) env l (.modify dn mods none)
    (∃ cs, cs.map toBytes = mods.filterMap (changeOf env.opts) ∧ cs ≠ [] ∧ Did env l peer (.modify ⟨dn, cs⟩) x) ∨
    (mods.filterMap (changeOf env.opts) = [] ∧ x.1 = l) ∨ ((∃ e, x.2 = .error e) ∧ x.1 = l) := by
  dsimp only
  simp only [Api.call, ldapModify]
  cases mods with
  | nil => exact .inr (.inl ⟨rfl, rfl⟩)
  | cons md mds =>
    have hpos : (md :: mds).length > 0 := Nat.succ_pos _
    rw [if_pos hpos]
    cases hub : env.conn.unbound with
    | true => exact .inr (.inr ⟨⟨_, rfl⟩, rfl⟩)
    | false =>
      simp only [Bool.false_eq_true, if_false]
      cases runValidation env.modValidators (dn, md :: mds, none) with
      | error e => exact .inr (.inr ⟨⟨_, rfl⟩, rfl⟩)
      | ok _ =>
        dsimp only
        cases hb : (buildChanges env.opts (md :: mds)).2 with
        | error e => exact .inr (.inr ⟨⟨_, rfl⟩, rfl⟩)
        | ok cs =>
          have hcs := changes_sent env.opts (md :: mds) cs hb
          cases cs with
          | nil => exact .inr (.inl ⟨hcs.symm, rfl⟩)
          | cons c cs =>
            refine .inl ⟨c :: cs, hcs, nofun, ?_⟩
            dsimp only
            have hpos : (c :: cs).length > 0 := Nat.succ_pos _
            rw [if_pos hpos]
            unfold Did
            cases hc : env.ctrls with
            | error e =>
              rw [show env.ctrlsOk = .error e by simp only [Api.Env.ctrlsOk, hc]]
              exact .inl ⟨_, rfl, rfl⟩
            | ok ws =>
              rw [show env.ctrlsOk = .ok () by simp only [Api.Env.ctrlsOk, hc]]
              dsimp only
              refine .inr ⟨⟨ws, rfl⟩, rfl, fun e he => ⟨e, ?_⟩⟩
              rw [he]
              rfl

theorem pair_mem {A B : Type} {P : A → B → Prop} {as : List A} {bs : List B} (h : Spec.Pairwise2 P as bs) : (∀ b ∈ bs, ∃ a ∈ as, P a b) ∧ ∀ a ∈ as, ∃ b ∈ bs, P a b := by
  induction h with
  | nil => exact ⟨nofun, nofun⟩
  | @cons a b as bs h _ ih =>
    refine ⟨fun b' hb => ?_, fun a' ha => ?_⟩
    · rcases List.mem_cons.1 hb with rfl | hb
      · exact ⟨a, List.mem_cons_self, h⟩
      · obtain ⟨a', h1, h2⟩ := ih.1 b' hb
        exact ⟨a', List.mem_cons_of_mem _ h1, h2⟩
    · rcases List.mem_cons.1 ha with rfl | ha
      · exact ⟨b, List.mem_cons_self, h⟩
      · obtain ⟨b', h1, h2⟩ := ih.2 a' ha
        exact ⟨b', List.mem_cons_of_mem _ h1, h2⟩

theorem pair_nodup {A B K L : Type} {P : A → B → Prop} {as : List A} {bs : List B} (f : A → K) (g : B → L) (h : Spec.Pairwise2 P as bs) (hn : (as.map f).Nodup)
    (hfg : ∀ a b a' b', P a b → P a' b' → g b = g b' → f a = f a') : (bs.map g).Nodup := by
  induction h with
  | nil => exact List.nodup_nil
  | @cons a b as bs h hrest ih =>
    rw [List.map_cons, List.nodup_cons] at hn ⊢
    refine ⟨fun hm => hn.1 ?_, ih hn.2⟩
    obtain ⟨b', hb', he⟩ := List.mem_map.1 hm
    obtain ⟨a', ha', hp⟩ := (pair_mem hrest).1 b' hb'
    exact List.mem_map.2 ⟨a', ha', (hfg a b a' b' h hp he.symm).symm⟩

/-- the controls made of the keywords of a record -/
theorem controls_of (env : Api.Env V R) (hreg : RegOk env.conn.reg) (embed : LVal → V) (method : Str) (r : Spec.Ldif.Record) (ctrls : PDict Str Laurelin.Ldif.Ctrl)
    (hm : Spec.Ldif.CtrlsMean env.ldif r.controls ctrls) (res : Option (List Controls.Wire)) (h : (env.withKwds embed method ctrls).ctrls = .ok res) :
    ∃ ws, ControlsOf env embed r ws ∧ (env.withKwds embed method ctrls).wire = if ws = [] then none else some ws := by
  obtain ⟨hnd, hget⟩ := hm
  have hw : (env.withKwds embed method ctrls).wire = res := by
    unfold Api.Env.wire
    rw [h]
  obtain ⟨⟨ws, h1, h2⟩, h3⟩ := (c30_attached _ _ _ _ _ _ _).1 h
  have hall : (ctrls.map (fun kv => (kv.1, Api.kwdOf embed kv.2))).filter (isControl env.conn.reg.byKwd) = ctrls.map (fun kv => (kv.1, Api.kwdOf embed kv.2)) :=
    List.filter_eq_self.2 (h3 rfl)
  rw [hall] at h1
  -- what one keyword is turned into
  have key : ∀ (a : Str × Controls.Kwd V) (w : Controls.Wire), Attached env.conn.reg.byKwd method env.conn.supportedCtrls env.conn.dfltCritical a w →
      ∃ c, env.conn.reg.byKwd.get? a.1 = some c ∧ w.oid = c.requestOid ∧ c.keyword = a.1 ∧ env.conn.reg.byOid.get? w.oid = some c := by
    rintro a w ⟨c, k1, k2, k3, _⟩
    obtain ⟨j1, _, _, _, _, j2⟩ := hreg.kwd _ _ k1
    exact ⟨c, k1, k3, j1, by rw [k3]; exact j2⟩
  have hkw : ∀ o kw, env.ldif.keyword o = some kw ↔ ∃ c, env.conn.reg.byOid.get? o = some c ∧ c.keyword = kw := by
    intro o kw
    show (env.conn.reg.byOid.get? o).map (fun c => c.keyword) = some kw ↔ _
    cases env.conn.reg.byOid.get? o with
    | none => exact ⟨nofun, fun ⟨_, h, _⟩ => by cases h⟩
    | some c => exact ⟨fun h => ⟨c, rfl, Option.some.inj h⟩, fun ⟨c', h, h'⟩ => by cases h; rw [← h']; rfl⟩
  have hgc : ∀ o c, env.conn.reg.getControl o = .ok c ↔ env.conn.reg.byOid.get? o = some c := by
    intro o c
    unfold Controls.Reg.getControl
    cases env.conn.reg.byOid.get? o with
    | none => exact ⟨nofun, nofun⟩
    | some c' => exact ⟨fun h => by cases h; rfl, fun h => by cases h; rfl⟩
  -- the lines of an OID are those of its keyword
  have hsame : ∀ o c, env.conn.reg.byOid.get? o = some c → ∀ o', env.ldif.keyword o' = some c.keyword ↔ o' = o := by
    intro o c hc o'
    rw [hkw]
    constructor
    · rintro ⟨c', k1, k2⟩
      obtain ⟨j1, j2⟩ := hreg.oid _ _ k1
      obtain ⟨j3, j4⟩ := hreg.oid _ _ hc
      rw [k2, j4] at j2
      cases j2
      rw [← j1, j3]
    · rintro rfl
      exact ⟨c, hc, rfl⟩
  have hlines : ∀ o c, env.conn.reg.byOid.get? o = some c → r.controls.filter (fun x => env.ldif.keyword x.oid = some c.keyword) = r.controls.filter (fun x => x.oid = o) := by
    intro o c hc
    refine List.filter_congr (fun x _ => ?_)
    exact decide_eq_decide.2 (hsame o c hc x.oid)
  have hfrom : ∀ w ∈ ws, ∃ kv ∈ ctrls, Attached env.conn.reg.byKwd method env.conn.supportedCtrls env.conn.dfltCritical (kv.1, Api.kwdOf embed kv.2) w := by
    intro w hw
    obtain ⟨a, ha, hp⟩ := (pair_mem h1).1 w hw
    obtain ⟨kv, hkv, rfl⟩ := List.mem_map.1 ha
    exact ⟨kv, hkv, hp⟩
  refine ⟨ws, ⟨?_, fun o => ⟨fun ho => ?_, ?_⟩, fun w hw => ?_⟩, by rw [hw, h2]⟩
  · refine pair_nodup (fun a => a.1) (fun w => w.oid) h1 ?_ ?_
    · rw [List.map_map]
      exact hnd
    · intro a b a' b' p1 p2 he
      obtain ⟨c, _, _, k1, k2⟩ := key a b p1
      obtain ⟨c', _, _, k3, k4⟩ := key a' b' p2
      rw [he, k4] at k2
      cases k2
      rw [← k1, k3]
  · obtain ⟨w, hw, rfl⟩ := List.mem_map.1 ho
    obtain ⟨kv, hkv, hp⟩ := hfrom w hw
    obtain ⟨c, _, _, k1, k2⟩ := key _ _ hp
    dsimp only at k1
    have hg := (PDict.mem_iff_get? ctrls hnd kv.1 kv.2).1 hkv
    rw [hget, ← k1, hlines _ _ k2] at hg
    cases hl : (r.controls.filter (fun x => x.oid = w.oid)).getLast? with
    | none => rw [hl] at hg; cases hg
    | some line =>
      obtain ⟨m1, m2⟩ := List.mem_filter.1 (List.mem_of_getLast? hl)
      exact ⟨List.mem_map.2 ⟨line, m1, of_decide_eq_true m2⟩, c, (hgc _ _).2 k2⟩
  · rintro ⟨ho, c, hc⟩
    have hc := (hgc _ _).1 hc
    obtain ⟨x, hx, rfl⟩ := List.mem_map.1 ho
    have hg := hget c.keyword
    rw [hlines _ _ hc] at hg
    cases hl : (r.controls.filter (fun y => y.oid = x.oid)).getLast? with
    | none =>
      rw [List.getLast?_eq_none_iff] at hl
      have : x ∈ r.controls.filter (fun y => y.oid = x.oid) := List.mem_filter.2 ⟨hx, decide_eq_true rfl⟩
      rw [hl] at this
      cases this
    | some line =>
      rw [hl] at hg
      obtain ⟨w, hw, hp⟩ := (pair_mem h1).2 _ (List.mem_map.2 ⟨(c.keyword, _), (PDict.mem_iff_get? ctrls hnd _ _).2 hg, rfl⟩)
      obtain ⟨c', k1, k2, _, _⟩ := key _ _ hp
      dsimp only at k1
      rw [(hreg.oid _ _ hc).2] at k1
      cases k1
      exact List.mem_map.2 ⟨w, hw, by rw [k2]; exact (hreg.oid _ _ hc).1⟩
  · obtain ⟨kv, hkv, hp⟩ := hfrom w hw
    obtain ⟨c, k0, _, k1, k2⟩ := key _ _ hp
    dsimp only at k0 k1
    have hg := (PDict.mem_iff_get? ctrls hnd kv.1 kv.2).1 hkv
    rw [hget, ← k1, hlines _ _ k2] at hg
    cases hl : (r.controls.filter (fun x => x.oid = w.oid)).getLast? with
    | none => rw [hl] at hg; cases hg
    | some line =>
      rw [hl] at hg
      have hkv2 : kv.2 = ⟨Spec.Ldif.valueOf line.value, line.crit⟩ := (Option.some.inj hg).symm
      obtain ⟨c', j1, _, j2, j3, j4, b, j5, j6⟩ := hp
      dsimp only at j1 j3 j4 j5
      rw [k0] at j1
      cases j1
      have hval : kwdValue (Api.kwdOf embed kv.2) = embed (Spec.Ldif.valueOf line.value) := by
        rw [hkv2]
        rcases line.crit with _ | _ | _ <;> rfl
      have hcr : wantedCriticality env.conn.dfltCritical (Api.kwdOf embed kv.2) = line.crit.getD env.conn.dfltCritical := by
        rw [hkv2]
        rcases line.crit with _ | _ | _ <;> rfl
      refine ⟨line, c, b, rfl, (hgc _ _).2 k2, by rw [← hval]; exact j5, j6, by rw [← hcr]; exact j3, fun ht => ?_⟩
      rw [j2]
      exact j4 (by rw [← j3]; exact ht)

/-- what one record makes the connection send -/
def SentOne (env : Api.Env V R) (embed : LVal → V) (n : Nat) (r : Spec.Ldif.Record) (log : List Bytes) (n' : Nat) : Prop :=
  (∃ bs, SentFor env embed n r bs ∧ log = [bs] ∧ n' = n + 1) ∨ ((∀ op, ¬ Asked r op) ∧ log = [] ∧ n' = n)

theorem did_sent (env : Api.Env V R) (hreg : RegOk env.conn.reg) (embed : LVal → V) (method : Str) (r : Spec.Ldif.Record) (ctrls : PDict Str Laurelin.Ldif.Ctrl) (hm : Spec.Ldif.CtrlsMean env.ldif r.controls ctrls)
    (l : Link Received.Decoded (S × List Bytes)) (c : Rfc4511.Call) (hask : ∀ o, Spec.Wire.asks c = some o → Asked r o) (x : Link Received.Decoded (S × List Bytes) × Except Err (Api.Ret R))
    (hd : Did (env.withKwds embed method ctrls) l peer c x) :
    ∃ log, x.1.peer.2 = l.peer.2 ++ log ∧ ((∃ ret, x.2 = .ok ret) → SentOne env embed l.st.next r log x.1.st.next) ∧ ((∃ e, x.2 = .error e) → log = [] ∨ SentOne env embed l.st.next r log x.1.st.next) := by
  rcases hd with ⟨e, h1, h2⟩ | ⟨⟨res, hres⟩, h1, h2⟩
  · refine ⟨[], by rw [h2, List.append_nil], fun ⟨ret, h⟩ => ?_, fun _ => .inl rfl⟩
    rw [h1] at h
    cases h
  · obtain ⟨ws, hws, hwire⟩ := controls_of env hreg embed method r ctrls hm res hres
    have hnext := exchange_next (peer := recorded peer) (env.withKwds embed method ctrls) l c
    have hlog := exchange_log (peer := peer) (env.withKwds embed method ctrls) l c
    dsimp only at hlog
    rw [← h1] at hnext hlog
    rcases hlog with ⟨k1, k2⟩ | ⟨bs, o, k1, k2, k3, k4⟩
    · refine ⟨[], by rw [k2, List.append_nil], fun ⟨ret, h⟩ => ?_, fun _ => .inl rfl⟩
      obtain ⟨e', he'⟩ := h2 _ k1
      rw [h] at he'
      cases he'
    · rw [hwire] at k2 k3
      have : SentOne env embed l.st.next r [bs] x.1.st.next := .inl ⟨bs, ⟨o, ws, hask o k1, hws, k2, k3⟩, rfl, hnext⟩
      exact ⟨[bs], k4, fun _ => this, fun _ => .inr this⟩

theorem exec_sent (env : Api.Env V R) (hreg : RegOk env.conn.reg) (embed : LVal → V) (l : Link Received.Decoded (S × List Bytes)) (r : Spec.Ldif.Record) (op : Laurelin.Ldif.Op) (hm : Spec.Ldif.Means env.ldif r op)
    (hi : NoneDropped env.opts r) :
    let x := Api.execLdif codec (fun d => d.1.1) (recorded peer) env embed l op
    ∃ log, x.1.peer.2 = l.peer.2 ++ log ∧ ((∃ ret, x.2 = .ok ret) → SentOne env embed l.st.next r log x.1.st.next) ∧ ((∃ e, x.2 = .error e) → log = [] ∨ SentOne env embed l.st.next r log x.1.st.next) := by
  dsimp only
  obtain ⟨dn, cs, change⟩ := r
  cases change with
  | add attrs =>
    cases op with
    | add dn' d ctrls =>
      obtain ⟨rfl, hcm, hn, hne, hd⟩ := hm
      obtain ⟨g1, g2⟩ := grouped attrs d hn hne hd
      refine did_sent env hreg embed (str "add") _ ctrls hcm l (.add dn.value (d.map (fun kv => (kv.1, kv.2.map Api.valOf)))) (fun o ho => ?_) _ (did_add _ l _ _)
      simp only [Spec.Wire.asks, Option.some.injEq] at ho
      subst ho
      refine ⟨d.map (fun kv => (kv.1, (kv.2.map Api.valOf).map (·.bytes))), ?_, ?_, ?_, ?_⟩
      · rw [List.map_map]
        exact hn
      · intro a
        rw [List.map_map]
        exact g1 a
      · intro kv hkv
        obtain ⟨kv0, h0, rfl⟩ := List.mem_map.1 hkv
        dsimp only
        rw [g2 kv0 h0, vals_text]
      · unfold Spec.PatternsS.addOp
        rw [List.map_map, List.map_map]
        rfl
    | delete _ _ => exact hm.elim
    | modify _ _ _ => exact hm.elim
    | modDn _ _ _ _ _ => exact hm.elim
  | delete =>
    cases op with
    | delete dn' ctrls =>
      obtain ⟨rfl, hcm⟩ := hm
      exact did_sent env hreg embed (str "delete") _ ctrls hcm l (.delete dn.value) (fun o ho => (Option.some.inj ho).symm) _ (did_delete _ l _)
    | add _ _ _ => exact hm.elim
    | modify _ _ _ => exact hm.elim
    | modDn _ _ _ _ _ => exact hm.elim
  | modify mods =>
    cases op with
    | modify dn' ms ctrls =>
      obtain ⟨rfl, hcm, rfl⟩ := hm
      have hsent := mods_sent env.opts mods (fun h => hi h mods rfl)
      have hdid := did_modify (peer := peer) (env.withKwds embed (str "modify") ctrls) l dn.value ((mods.map (fun m => (⟨m.op, m.name, .list (m.vals.map (fun i => LVal.text i.value))⟩ : Mod LVal))).map (fun md => (⟨md.op, md.attr, match md.vals with
          | .deleteAll => .deleteAll
          | .list l => .list (l.map Api.valOf)⟩ : Mod AVal)))
      dsimp only at hdid
      rw [show (env.withKwds embed (str "modify") ctrls).opts = env.opts from rfl] at hdid
      erw [hsent] at hdid
      rcases hdid with ⟨chs, h1, h2, h3⟩ | ⟨h1, h2⟩ | ⟨⟨e, h1⟩, h2⟩
      · refine did_sent env hreg embed (str "modify") _ ctrls hcm l _ (fun o ho => ?_) _ h3
        have h0 : mods ≠ [] := by
          rintro rfl
          exact h2 (List.map_eq_nil_iff.1 h1)
        refine ⟨h0, ?_⟩
        simp only [Spec.Wire.asks, Option.some.injEq] at ho
        rw [← ho, ← h1]
        unfold Spec.OverWireS.modifyOp
        rw [List.map_map]
        rfl
      · have h0 : ∀ op, ¬ Asked ⟨dn, cs, .modify mods⟩ op := fun op h => h.1 (List.map_eq_nil_iff.1 h1)
        refine ⟨[], ?_, fun _ => .inr ⟨h0, rfl, ?_⟩, fun _ => .inl rfl⟩
        · rw [List.append_nil]
          exact congrArg (fun l : Link Received.Decoded (S × List Bytes) => l.peer.2) h2
        · exact congrArg (fun l : Link Received.Decoded (S × List Bytes) => l.st.next) h2
      · refine ⟨[], ?_, fun ⟨ret, h⟩ => ?_, fun _ => .inl rfl⟩
        · rw [List.append_nil]
          exact congrArg (fun l : Link Received.Decoded (S × List Bytes) => l.peer.2) h2
        · have h := h1.symm.trans h
          cases h
    | add _ _ _ => exact hm.elim
    | delete _ _ => exact hm.elim
    | modDn _ _ _ _ _ => exact hm.elim
  | rename moddn rdn old sup =>
    cases op with
    | modDn dn' rdn' clean par ctrls =>
      obtain ⟨rfl, hcm, rfl, rfl, rfl⟩ := hm
      cases sup with
      | none => exact did_sent env hreg embed (str "mod_dn") _ ctrls hcm l (.modDn ⟨dn.value, rdn.value, clean, none⟩) (fun o ho => (Option.some.inj ho).symm) _ (did_modDn _ l _ _ _ _)
      | some p => exact did_sent env hreg embed (str "mod_dn") _ ctrls hcm l (.modDn ⟨dn.value, rdn.value, clean, some p.value⟩) (fun o ho => (Option.some.inj ho).symm) _ (did_modDn _ l _ _ _ _)
    | add _ _ _ => exact hm.elim
    | delete _ _ => exact hm.elim
    | modify _ _ _ => exact hm.elim

theorem sends_cons (env : Api.Env V R) (embed : LVal → V) (n n' : Nat) (r : Spec.Ldif.Record) (rs : List Spec.Ldif.Record) (log log' : List Bytes) (h : SentOne env embed n r log n') (h' : Sends env embed n' rs log') :
    Sends env embed n (r :: rs) (log ++ log') := by
  rcases h with ⟨bs, h1, rfl, rfl⟩ | ⟨h1, rfl, rfl⟩
  · exact .sent h1 h'
  · exact .silent h1 h'

theorem ops_sent (env : Api.Env V R) (hreg : RegOk env.conn.reg) (embed : LVal → V) (rs : List Spec.Ldif.Record) (hi : ∀ r ∈ rs, NoneDropped env.opts r) (l : Link Received.Decoded (S × List Bytes))
    (ops : List Laurelin.Ldif.Op) (hm : MeansAll env.ldif rs ops) :
    let x := runOps (Api.execLdif codec (fun d => d.1.1) (recorded peer) env embed) l ops
    ∃ log, x.1.2.peer.2 = l.peer.2 ++ log ∧ ((∃ rets, x.2 = .ok rets) → Sends env embed l.st.next rs log) ∧
      ((∃ e, x.2 = .error e) → ∃ first r rest, rs = first ++ r :: rest ∧ (Sends env embed l.st.next first log ∨ Sends env embed l.st.next (first ++ [r]) log)) := by
  induction rs generalizing l ops with
  | nil =>
    cases ops with
    | nil => exact ⟨[], (List.append_nil _).symm, fun _ => .nil _, fun ⟨e, h⟩ => by cases h⟩
    | cons _ _ => exact hm.elim
  | cons r rs ih =>
    cases ops with
    | nil => exact hm.elim
    | cons op ops =>
      obtain ⟨hm1, hm2⟩ := hm
      obtain ⟨log, k1, k2, k3⟩ := exec_sent (peer := peer) env hreg embed l r op hm1 (hi r List.mem_cons_self)
      dsimp only
      rw [runOps]
      revert k1 k2 k3
      rcases Api.execLdif codec (fun d => d.1.1) (recorded peer) env embed l op with ⟨l', e | ret⟩
      · intro k1 k2 k3
        dsimp only at k1 k2 k3 ⊢
        refine ⟨log, k1, (fun ⟨rets, h⟩ => by cases h), fun _ => ⟨[], r, rs, rfl, ?_⟩⟩
        rcases k3 ⟨e, rfl⟩ with rfl | h
        · exact .inl (.nil _)
        · have := sends_cons env embed _ _ r [] log [] h (.nil _)
          rw [List.append_nil] at this
          exact .inr this
      · intro k1 k2 k3
        have hone := k2 ⟨ret, rfl⟩
        obtain ⟨log', j1, j2, j3⟩ := ih (fun x hx => hi x (List.mem_cons_of_mem _ hx)) l' ops hm2
        dsimp only at j1 j2 j3 k1 hone ⊢
        revert j1 j2 j3
        rcases runOps (Api.execLdif codec (fun d => d.1.1) (recorded peer) env embed) l' ops with ⟨⟨done, l2⟩, e | rets⟩
        · intro j1 j2 j3
          dsimp only at j1 j2 j3 ⊢
          refine ⟨log ++ log', by rw [j1, k1, List.append_assoc], (fun ⟨rets, h⟩ => by cases h), fun _ => ?_⟩
          obtain ⟨first, r', rest, rfl, h4⟩ := j3 ⟨e, rfl⟩
          exact ⟨r :: first, r', rest, rfl, h4.imp (sends_cons env embed _ _ r first log log' hone) (sends_cons env embed _ _ r (first ++ [r']) log log' hone)⟩
        · intro j1 j2 j3
          dsimp only at j1 j2 j3 ⊢
          exact ⟨log ++ log', by rw [j1, k1, List.append_assoc], fun _ => sends_cons env embed _ _ r rs log log' hone (j2 ⟨rets, rfl⟩), fun ⟨e, h⟩ => by cases h⟩

end
end AppP
open Laurelin.Wire WireP WireR OverWire OverWireP DirP AppP Spec.OverWireS Spec.DirectoryS Spec.ApplyS
open Laurelin.Spec.Ldif (Separated FoldOf file Supported)
section
variable {V R S : Type}

/-- **C94, what is sent.** Whatever answers (the other side need not be a server), `process_ldif` writes one message for each record that asks for something, in order, with successive IDs: the request that the record
describes, with the controls that it gives. If it raises, the messages written are those of some records at the start of the file, or of these and the record that failed. -/
theorem c94_sent (peer : Peer S) (env : Api.Env V R) (hreg : RegOk env.conn.reg) (embed : LVal → V) (st : Session.St Received.Decoded) (s : S) (version : Bool) (recs : List (Spec.Ldif.Record × Nat))
    (hsep : Separated recs) (hg : ∀ rk ∈ recs, rk.1.Good) (hsup : ∀ rk ∈ recs, ∀ c ∈ rk.1.controls, Supported env.ldif c) (hne : version = true ∨ recs ≠ []) (hi : ∀ rk ∈ recs, NoneDropped env.opts rk.1)
    (text : Str) (ht : FoldOf text (file version recs)) :
    let x := Api.processLdif codec (fun d => d.1.1) (recorded peer) env embed ⟨st, s, []⟩ text
    ((∃ rets, x.2 = .ok rets) → Sends env embed st.next (recs.map Prod.fst) x.1.peer.2) ∧
    ((∃ e, x.2 = .error e) → ∃ first r rest, recs.map Prod.fst = first ++ r :: rest ∧ (Sends env embed st.next first x.1.peer.2 ∨ Sends env embed st.next (first ++ [r]) x.1.peer.2)) := by
  dsimp only
  obtain ⟨ops, h1, h2⟩ := c44_applied_partial (σ := Link Received.Decoded (S × List Bytes)) (ρ := Api.Ret R) env.ldif version recs hsep hg hsup hne text ht
  unfold Api.processLdif
  rw [h2]
  obtain ⟨log, k1, k2, k3⟩ := ops_sent (peer := peer) env hreg embed (recs.map Prod.fst) (fun r hr => by
    obtain ⟨rk, hrk, rfl⟩ := List.mem_map.1 hr
    exact hi rk hrk) ⟨st, s, []⟩ ops h1
  have k1 : _ = log := k1
  dsimp only at k1 k2 k3 ⊢
  rw [k1]
  exact ⟨k2, k3⟩
end

/-! ### The hypotheses are met -/
section
set_option maxRecDepth 100000

def AppP.ctl : Controls.Cls Bytes Unit :=
  { method := .names [str "delete"], keyword := str "k", requestOid := str "1.2", prepare := fun b => .ok (b.map UInt8.toNat), handle := fun _ => .ok () }
def AppP.ctlEnv : Api.Env Bytes Unit :=
  ⟨id, [], [], ⟨false, true⟩, .ok none, ⟨false, 0, 0, true, true, .unified, str "(objectClass=*)", false, [], [str "1.2"], ({} : Controls.Reg Bytes Unit).registerAll [AppP.ctl]⟩,
    ⟨{}, true, true, [], [], fun _ => ([], none)⟩, true, [], []⟩
def AppP.ctlRec : Spec.Ldif.Record := ⟨AppP.it (str "o"), [⟨str "9.9", some false, [98]⟩, ⟨str "1.2", some true, [97]⟩], .delete⟩
def AppP.ctlText : Str := str "dn: o\ncontrol: 9.9 false:: Yg==\ncontrol: 1.2 true:: YQ==\nchangetype: delete\n"
def AppP.okPeer : Peer Unit := fun _ _ => ((), [[0x30, 0x0c, 2, 1, 1, 0x6b, 7, 10, 1, 0, 4, 0, 4, 0]])

/-- A deletion with a critical control that the library knows and one, not critical, that it does not know: the first is sent. -/
example :
    let x := Api.processLdif codec (fun d => d.1.1) (recorded AppP.okPeer) AppP.ctlEnv Spec.Ldif.octets ⟨Session.St.init, (), []⟩ AppP.ctlText
    Sends AppP.ctlEnv Spec.Ldif.octets 1 [AppP.ctlRec] x.1.peer.2 ∧
    x.1.peer.2 = [[48, 21, 2, 1, 1, 74, 1, 111, 160, 13, 48, 11, 4, 3, 49, 46, 50, 1, 1, 1, 4, 1, 97]] := by
  have hok : (Api.processLdif codec (fun d => d.1.1) (recorded AppP.okPeer) AppP.ctlEnv Spec.Ldif.octets ⟨Session.St.init, (), []⟩ AppP.ctlText).2.isOk = true := by decide +kernel
  have hlog : (Api.processLdif codec (fun d => d.1.1) (recorded AppP.okPeer) AppP.ctlEnv Spec.Ldif.octets ⟨Session.St.init, (), []⟩ AppP.ctlText).1.peer.2 =
    [[48, 21, 2, 1, 1, 74, 1, 111, 160, 13, 48, 11, 4, 3, 49, 46, 50, 1, 1, 1, 4, 1, 97]] := by decide +kernel
  have h := c94_sent AppP.okPeer AppP.ctlEnv (c61_consistent [AppP.ctl]) Spec.Ldif.octets Session.St.init () false [(AppP.ctlRec, 1)] trivial
    (fun rk hrk => by
      rw [List.mem_singleton.1 hrk]
      refine ⟨it_good 'o' (by decide), fun c hc => ?_, trivial⟩
      rcases List.mem_cons.1 hc with rfl | hc
      · exact ⟨str "9", str ".9", rfl, .inl ⟨'9', rfl, rfl⟩, [str ".9"], by simp, rfl, fun u hu => by
          rw [List.mem_singleton.1 hu]; exact ⟨str ".", str "9", rfl, rfl, .inl ⟨'9', rfl, rfl⟩⟩⟩
      · rw [List.mem_singleton.1 hc]
        exact ⟨str "1", str ".2", rfl, .inl ⟨'1', rfl, rfl⟩, [str ".2"], by simp, rfl, fun u hu => by
          rw [List.mem_singleton.1 hu]; exact ⟨str ".", str "2", rfl, rfl, .inl ⟨'2', rfl, rfl⟩⟩⟩)
    (fun rk hrk c hc => by
      rw [List.mem_singleton.1 hrk] at hc
      rcases List.mem_cons.1 hc with rfl | hc
      · exact .inr rfl
      · rw [List.mem_singleton.1 hc]
        exact .inl (by decide))
    (.inr (by simp)) (fun rk hrk => by
      rw [List.mem_singleton.1 hrk]
      intro _ mods h
      cases h) AppP.ctlText (by
      rw [show AppP.ctlText = file false [(AppP.ctlRec, 1)] by decide +kernel]
      exact LdifR.foldOf_refl _)
  refine ⟨h.1 ?_, hlog⟩
  revert hok
  rcases (Api.processLdif codec (fun d => d.1.1) (recorded AppP.okPeer) AppP.ctlEnv Spec.Ldif.octets ⟨Session.St.init, (), []⟩ AppP.ctlText).2 with e | rets
  · intro hok; cases hok
  · exact fun _ => ⟨rets, rfl⟩
end

end Laurelin.Props
