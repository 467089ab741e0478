import Verif.Props.Patterns
import Verif.Spec.Willing
/-!
# C93 what can be done is done
-/
set_option linter.unusedSectionVars false
namespace Laurelin.Props
open Laurelin Codec Asn1 Rfc4511 Spec
namespace WillP
open Laurelin.Wire WireP WireR OverWire OverWireP DirP EntP Spec.OverWireS Spec.DirectoryS Spec.EntriesS Spec.PatternsS Spec.WillingS
section
variable {V R S D : Type} {dir : Directory D} {contents : S → D} {peer : Peer S}

theorem serves (hw : Willing dir contents peer) : Serves dir contents peer where
  update s bs mid op resp ctrls h1 h2 h3 := by
    obtain ⟨r, h4, h5⟩ := hw.update s bs mid op resp ctrls h1 h2 h3
    exact ⟨r, h4, h5.imp id (fun h => ⟨h.1, h.2.1⟩)⟩
  compare s bs mid dn attr value ctrls h1 h2 := by
    obtain ⟨h3, r, h4, h5⟩ := hw.compare s bs mid dn attr value ctrls h1 h2
    refine ⟨h3, r, h4, fun h => ?_, fun h => ?_⟩
    · rcases h5 with h5 | h5
      · exact h5.2
      · rw [h] at h5; exact absurd h5.1 (by decide)
    · rcases h5 with h5 | h5
      · rw [h] at h5; exact absurd h5.1 (by decide)
      · exact h5.2
  search s bs mid op ctrls h1 h2 h3 := by
    obtain ⟨k0, found, r, k1, k2, k3, k4, k5, k6, _⟩ := hw.search s bs mid op ctrls h1 h2 h3
    exact ⟨k0, found, r, k1, k2, k3, k4, k5, k6⟩

theorem accepts {A : Type} (vs : List (A → Except Err Unit)) (h : ∀ v ∈ vs, ∀ a, v a = .ok ()) (a : A) : runValidation vs a = .ok () := by
  induction vs with
  | nil => rfl
  | cons v vs ih =>
    rw [runValidation, h v (List.mem_cons_self ..) a]
    exact ih (fun v hv => h v (List.mem_cons_of_mem _ hv))

theorem usable_ok (env : Api.Env V R) (hu : Usable env) : env.ctrlsOk = .ok () ∧ ctrlsOk env.wire := by
  obtain ⟨c, h1, h2⟩ := hu.ctrls
  refine ⟨by rw [Api.Env.ctrlsOk, h1], ?_⟩
  rw [Api.Env.wire, h1]
  exact h2

/-- an update that can be asked for and is possible -/
theorem update_done (hw : Willing dir contents peer) (env : Api.Env V R) (hu : Usable env) (l : Link Received.Decoded S) (hr : SessionP.Ready l.st) (c : Rfc4511.Call) (hc : SessionS.Single c) (op : Spec.Wire.Op)
    (resp : Spec.Wire.Result → Spec.Wire.Op) (ho : Spec.Wire.asks c = some op) (hoid : oidsOk c) (hresp : respond op = some resp)
    (hS : ∀ r : Spec.Wire.Result, r.code = 0 → SessionS.Succeeds c (resp r) .done) (hp : Possible dir (contents l.peer) l.st.next op env.wire) :
    Api.unitOf (Api.exchange codec (fun d => d.1.1) peer env l c).2 = .ok () := by
  obtain ⟨⟨f1, b, f2⟩, d', hd'⟩ := hp
  rcases exchange_sent (peer := peer) env l hr c with ⟨_, _, _, h1⟩ | ⟨bs, o, h1, h2, h3, h4, h5⟩
  · obtain ⟨bs, hs, _⟩ := c79_shortest l.st.next c env.wire op ho hoid (usable_ok env hu).2 f1 b f2
    rw [hs] at h1
    cases h1
  · rw [ho] at h1
    cases h1
    obtain ⟨r, ha, hcase⟩ := hw.update l.peer bs _ op resp _ hresp h2 h3
    obtain ⟨g1, g2⟩ := h5 _ ha
    obtain ⟨e1, e2, _⟩ := SessionP.finish_ends env.conn.reg env.own c hc ⟨l.st.next, resp r, none⟩ rfl
    rw [g2]
    rcases hcase with ⟨k1, k2⟩ | ⟨k1, k2, k3⟩
    · rw [e1 .done (hS r k1)]
      rfl
    · exact absurd hd' (k3 d')

theorem compare_done (hw : Willing dir contents peer) (env : Api.Env V R) (hu : Usable env) (l : Link Received.Decoded S) (hr : SessionP.Ready l.st) (dn attr value : Str)
    (hf : Fits l.st.next (.compareRequest (utf8Enc dn) (utf8Enc attr) (utf8Enc value)) env.wire) :
    ∃ b, (Api.exchange codec (fun d => d.1.1) peer env l (.compare dn attr value)).2 = .returns (.truth b) := by
  obtain ⟨f1, b, f2⟩ := hf
  rcases exchange_sent (peer := peer) env l hr (.compare dn attr value) with ⟨_, _, _, h1⟩ | ⟨bs, o, h1, h2, h3, h4, h5⟩
  · obtain ⟨bs, hs, _⟩ := c79_shortest l.st.next (.compare dn attr value) env.wire _ rfl trivial (usable_ok env hu).2 f1 b f2
    rw [hs] at h1
    cases h1
  · cases h1
    obtain ⟨_, r, ha, hcase⟩ := hw.compare l.peer bs _ _ _ _ _ h2 h3
    obtain ⟨g1, g2⟩ := h5 _ ha
    obtain ⟨e1, e2, _⟩ := SessionP.finish_ends env.conn.reg env.own (.compare dn attr value) trivial ⟨l.st.next, .compareResponse r, none⟩ rfl
    rw [g2]
    rcases hcase with ⟨k, _⟩ | ⟨k, _⟩
    · exact ⟨true, e1 _ (.inl ⟨k, rfl⟩)⟩
    · exact ⟨false, e1 _ (.inr ⟨k, rfl⟩)⟩

theorem search_done (hw : Willing dir contents peer) (env : Api.Env V R) (l : Link Received.Decoded S) (hr : SessionP.Ready l.st) (a : SearchArgs V) (ha : Answerable dir env (contents l.peer) l.st.next a) :
    ∃ items, (Api.searchAll codec (fun d => d.1.1) peer env l a).2 = .ok items := by
  obtain ⟨hk, hm, op0, ⟨n, f, s1, s2, s3⟩, ⟨f1, b, f2⟩, hfound⟩ := ha
  have h := searchAll_gen (dir := dir) (contents := contents) (peer := peer) env (fun op => ∃ found, Sendable dir (contents l.peer) l.st.next op found) l hr a (fun bs op ctrls h1 h2 h3 =>
    hw.search l.peer bs _ op ctrls h1 h2 h3)
  let sent : SearchSent V := ⟨⟨a.base, a.scope, Spec.orDefault a.deref env.conn.dfltDeref, a.limit, Spec.orDefault a.timeout env.conn.dfltTimeout, a.attrsOnly, f, attrsOf a⟩, none,
    Spec.orDefault a.fetchRefs env.conn.dfltFetchRefs, Spec.orDefault a.follow env.conn.dfltFollow, []⟩
  have hsent : ldapSearch env.conn a = .ok sent := (c65_sent env.conn a sent).2 ⟨hm, rfl, rfl, rfl, rfl, rfl, rfl, s2, rfl, rfl, rfl, ⟨[], by rw [hk]; exact .nil, rfl⟩, by rw [hk]; rfl⟩
  have hask : Spec.Wire.asks (.search sent.req) = some op0 := by
    simp only [Spec.Wire.asks, sent, s1, Option.map_some, s3]
  obtain ⟨bs, hbs, _⟩ := c79_shortest l.st.next (.search sent.req) none op0 hask trivial nofun f1 b f2
  exact h.2.2.2.2 hk sent bs op0 hsent hbs hask hfound

/-- the items of a search that one entry was found for -/
theorem get_done (hw : Willing dir contents peer) (env : Api.Env V R) (hu : Usable env) (l : Link Received.Decoded S) (hr : SessionP.Ready l.st) (dn : Str) (attrs : Option (List Str))
    (kwds : PDict Str (Controls.Kwd V)) (ha : Answerable dir env (contents l.peer) l.st.next (Api.getArgs dn attrs kwds))
    (h1 : ∀ op found, SearchFor env.conn (Api.getArgs dn attrs kwds) op → dir.finds (contents l.peer) op found → ∃ e, found = [e]) :
    ∃ i, (Api.getOne codec (fun d => d.1.1) peer env l dn attrs kwds).2 = .ok i := by
  obtain ⟨items, hi⟩ := search_done hw env l hr _ ha
  have h := (searchAll_step env (serves hw) l hr (Api.getArgs dn attrs kwds)).2.1 items hi
  obtain ⟨op, found, k1, k2, k3⟩ := h
  obtain ⟨e, rfl⟩ := h1 op found k1 k2
  simp only [Api.getOne, hu.bound, Bool.false_eq_true, if_false]
  revert hi
  rcases Api.searchAll codec (fun d => d.1.1) peer env l (Api.getArgs dn attrs kwds) with ⟨l', r⟩
  intro hi
  dsimp only at hi
  subst hi
  cases k3 with
  | cons _ k4 =>
    cases k4
    exact ⟨_, rfl⟩

theorem exists_done (hw : Willing dir contents peer) (env : Api.Env V R) (hu : Usable env) (l : Link Received.Decoded S) (hr : SessionP.Ready l.st) (dn : Str) (attrs : Option (List Str))
    (kwds : PDict Str (Controls.Kwd V)) (ha : Answerable dir env (contents l.peer) l.st.next (Api.getArgs dn attrs kwds)) :
    let x := (Api.getOne codec (fun d => d.1.1) peer env l dn attrs kwds).2
    (∃ i, x = .ok i) ∨ x = .error .noResults ∨ x = .error .multipleResults := by
  obtain ⟨items, hi⟩ := search_done hw env l hr _ ha
  simp only [Api.getOne, hu.bound, Bool.false_eq_true, if_false]
  revert hi
  rcases Api.searchAll codec (fun d => d.1.1) peer env l (Api.getArgs dn attrs kwds) with ⟨l', r⟩
  intro hi
  dsimp only at hi
  subst hi
  match items with
  | [] => exact .inr (.inl rfl)
  | [i] => exact .inl ⟨i, rfl⟩
  | _ :: _ :: _ => exact .inr (.inr rfl)

theorem split_ok (parent : Str) : ∀ (rdn : Str) (prev : Bool), (prev = true → rdn ≠ []) → (∀ a b, rdn = a ++ str "," ++ b → (a = [] ∧ prev = true) ∨ a.getLast? = some '\\') → rdn.getLast? ≠ some '\\' →
    splitUnescaped prev (rdn ++ str "," ++ parent) = some (rdn, parent) := by
  intro rdn
  induction rdn with
  | nil =>
    intro prev h0 _ _
    cases prev with
    | true => exact absurd rfl (h0 rfl)
    | false => simp [splitUnescaped]
  | cons c t ih =>
    intro prev h0 h1 h2
    have hc : ¬ (c = ',' ∧ prev = false) := by
      rintro ⟨rfl, rfl⟩
      rcases h1 [] t rfl with ⟨_, h⟩ | h <;> cases h
    simp only [List.cons_append, splitUnescaped, if_neg hc]
    have := ih (c == '\\') (fun hb ht => by
      subst ht
      exact h2 (by simpa using hb)) (fun a b hab => by
      rcases h1 (c :: a) b (by rw [hab]; rfl) with ⟨h, _⟩ | h
      · cases h
      · cases a with
        | nil => exact .inl ⟨rfl, by simpa using h⟩
        | cons x a => exact .inr (by simpa using h)) (fun h => h2 (by
      cases t with
      | nil => cases h
      | cons x t => simpa using h))
    simp only [List.append_assoc] at this ⊢
    rw [this]
    rfl

theorem builds (o : EmptyOpts) (mods : List (Mod AVal)) (h1 : ∀ md ∈ mods, md.op = .add → md.vals ≠ .deleteAll) (h2 : o.error = true → ∀ md ∈ mods, md.op ≠ .add → md.vals ≠ .list []) :
    ∃ cs, (buildChanges o mods).2 = .ok cs := by
  induction mods with
  | nil => exact ⟨[], rfl⟩
  | cons md mods ih =>
    obtain ⟨cs, hcs⟩ := ih (fun md h => h1 md (List.mem_cons_of_mem _ h)) (fun he md h => h2 he md (List.mem_cons_of_mem _ h))
    have a1 := h1 md (List.mem_cons_self ..)
    have a2 := fun he => h2 he md (List.mem_cons_self ..)
    obtain ⟨op, attr, vals⟩ := md
    cases vals with
    | deleteAll =>
      cases op with
      | add => exact absurd rfl (a1 rfl)
      | replace => exact ⟨_, by simp only [buildChanges, hcs]; rfl⟩
      | delete => exact ⟨_, by simp only [buildChanges, hcs]; rfl⟩
    | list vs =>
      cases vs with
      | cons v vs => cases op <;> exact ⟨_, by simp only [buildChanges, hcs]; rfl⟩
      | nil =>
        cases op with
        | add => exact ⟨_, by simp only [buildChanges, hcs]; rfl⟩
        | replace =>
          have he : o.error = false := by
            cases he : o.error with
            | false => rfl
            | true => exact absurd rfl (a2 he nofun)
          cases hi : o.ignore with
          | true => exact ⟨_, by simp only [buildChanges, he, hi, if_true, Bool.false_eq_true, if_false]; exact hcs⟩
          | false => exact ⟨_, by simp only [buildChanges, he, hi, hcs, Bool.false_eq_true, if_false]; rfl⟩
        | delete =>
          have he : o.error = false := by
            cases he : o.error with
            | false => rfl
            | true => exact absurd rfl (a2 he nofun)
          cases hi : o.ignore with
          | true => exact ⟨_, by simp only [buildChanges, he, hi, if_true, Bool.false_eq_true, if_false]; exact hcs⟩
          | false => exact ⟨_, by simp only [buildChanges, he, hi, hcs, Bool.false_eq_true, if_false]; rfl⟩

theorem modDn_done (hw : Willing dir contents peer) (env : Api.Env V R) (hu : Usable env) (l : Link Received.Decoded S) (hr : SessionP.Ready l.st) (dn rdn : Str) (clean : Bool) (parent : Option Str)
    (hp : Possible dir (contents l.peer) l.st.next (.modDNRequest (utf8Enc dn) (utf8Enc rdn) clean (parent.map utf8Enc)) env.wire) :
    ∃ ret, (Api.sendModDn codec (fun d => d.1.1) peer env l (ldapModDn env.conn.unbound env.ctrlsOk (fun rq => Api.unitOf (Api.exchange codec (fun d => d.1.1) peer env l (.modDn rq)).2) dn rdn clean parent)).2 =
      .ok ret := by
  simp only [Api.sendModDn, ldapModDn, hu.bound, Bool.false_eq_true, if_false, (usable_ok env hu).1]
  rw [update_done hw env hu l hr (.modDn ⟨dn, rdn, clean, parent⟩) trivial _ _ rfl trivial rfl (fun r h => ⟨r, rfl, h, rfl⟩) hp]
  exact ⟨_, rfl⟩

theorem modify_done (hw : Willing dir contents peer) (env : Api.Env V R) (hu : Usable env) (l : Link Received.Decoded S) (hr : SessionP.Ready l.st) (dn : Str) (mods : List (Mod AVal)) (current : Option (AttrsDict AVal))
    (h1 : ∀ md ∈ mods, md.op = .add → md.vals ≠ .deleteAll) (h2 : env.opts.error = true → ∀ md ∈ mods, md.op ≠ .add → md.vals ≠ .list [])
    (h3 : mods.filterMap (changeOf env.opts) ≠ [] → Possible dir (contents l.peer) l.st.next (Spec.OverWireS.modifyOp dn (mods.filterMap (changeOf env.opts))) env.wire) :
    (Api.call codec (fun d => d.1.1) peer env l (.modify dn mods current)).2 = .ok .done := by
  simp only [Api.call, ldapModify]
  by_cases hm : mods.length > 0
  · obtain ⟨cs, hcs⟩ := builds env.opts mods h1 h2
    simp only [if_pos hm, hu.bound, Bool.false_eq_true, if_false, accepts _ hu.modifying, hcs]
    by_cases hl : cs.length > 0
    · simp only [if_pos hl, (usable_ok env hu).1]
      have hsent := changes_sent env.opts mods cs hcs
      have hop : Spec.Wire.Op.modifyRequest (utf8Enc dn) (cs.map (fun c => (Spec.Wire.modNumber c.op, Spec.Wire.ofAttr (c.attr, c.vals)))) =
          Spec.OverWireS.modifyOp dn (cs.map toBytes) := by
        simp only [Spec.OverWireS.modifyOp, List.map_map]
        rfl
      have hne : mods.filterMap (changeOf env.opts) ≠ [] := by
        rw [← hsent]
        intro h
        rw [List.map_eq_nil_iff] at h
        rw [h] at hl
        simp at hl
      have hp := h3 hne
      rw [← hsent, ← hop] at hp
      rw [update_done hw env hu l hr (.modify ⟨dn, cs⟩) trivial _ _ rfl trivial rfl (fun r h => ⟨r, rfl, h, rfl⟩) hp]
      rfl
    · simp only [if_neg hl]
      rfl
  · simp only [if_neg hm]
    rfl

/-! ## The attribute methods of a connection -/

theorem change_same (lower : Str → Str) (m : Str → Bytes → Bytes → Bool) (e e2 : Spec.Entry Bytes) (c : Change Bytes) (h : e2 (lower c.attr) = e (lower c.attr)) (e' : Spec.Entry Bytes)
    (hok : srvChange lower m e c = .ok e') : ∃ e2', srvChange lower m e2 c = .ok e2' := by
  obtain ⟨op, attr, vals⟩ := c
  simp only at h
  cases op with
  | add =>
    simp only [srvChange, h] at hok ⊢
    split at hok
    · exact ⟨_, rfl⟩
    · cases hok
  | replace => exact ⟨_, rfl⟩
  | delete =>
    simp only [srvChange, h] at hok ⊢
    by_cases hv : vals = []
    · simp only [if_pos hv] at hok ⊢
      by_cases he : e (lower attr) = []
      · simp only [if_pos he] at hok; cases hok
      · simp only [if_neg he]; exact ⟨_, rfl⟩
    · simp only [if_neg hv] at hok ⊢
      split at hok
      · exact ⟨_, rfl⟩
      · cases hok

theorem change_other (lower : Str → Str) (m : Str → Bytes → Bytes → Bool) (e e' : Spec.Entry Bytes) (c : Change Bytes) (h : srvChange lower m e c = .ok e') (x : Str) (hx : x ≠ lower c.attr) : e' x = e x := by
  have hput : ∀ l, Entry.put lower e c.attr l x = e x := fun l => by simp only [Entry.put, if_neg hx]
  simp only [srvChange] at h
  split at h
  · split at h
    · cases h; exact hput _
    · cases h
  · cases h; exact hput _
  · split at h
    · split at h
      · cases h
      · cases h; exact hput _
    · split at h
      · cases h; exact hput _
      · cases h

/-- changes of different attributes that are possible one by one are possible together -/
theorem changes_ok (lower : Str → Str) (m : Str → Bytes → Bytes → Bool) (cs : List (Change Bytes)) : ∀ e : Spec.Entry Bytes, (cs.map (fun c => lower c.attr)).Nodup →
    (∀ c ∈ cs, ∃ e', srvChange lower m e c = .ok e') → ∃ e', srvModify lower m e cs = .ok e' := by
  induction cs with
  | nil => exact fun e _ _ => ⟨e, rfl⟩
  | cons c cs ih =>
    intro e hn h
    obtain ⟨e1, h1⟩ := h c (List.mem_cons_self ..)
    rw [List.map_cons, List.nodup_cons] at hn
    obtain ⟨e', h2⟩ := ih e1 hn.2 (fun c' hc' => by
      obtain ⟨e2, h2⟩ := h c' (List.mem_cons_of_mem _ hc')
      exact change_same lower m e e1 c' (change_other lower m e e1 c h1 _ (fun hx => hn.1 (by rw [← hx]; exact List.mem_map_of_mem hc'))) e2 h2)
    exact ⟨e', by rw [srvModify, h1]; exact h2⟩

theorem add_ok (m : Bytes → Bytes → Bool) (vs : List Bytes) : ∀ cur : List Bytes, (∀ v ∈ vs, ∀ x ∈ cur, m x v = false) → vs.Pairwise (fun x y => m x y = false) → ∃ l, srvAdd m cur vs = .ok l := by
  induction vs with
  | nil => exact fun cur _ _ => ⟨cur, rfl⟩
  | cons v vs ih =>
    intro cur h1 h2
    rw [List.pairwise_cons] at h2
    have hv : cur.any (fun x => m x v) = false := by
      rw [List.any_eq_false]
      intro x hx
      simp [h1 v (List.mem_cons_self ..) x hx]
    rw [srvAdd, hv]
    simp only [Bool.false_eq_true, if_false]
    exact ih (cur ++ [v]) (fun w hw x hx => by
      rcases List.mem_append.1 hx with hx | hx
      · exact h1 w (List.mem_cons_of_mem _ hw) x hx
      · rw [List.mem_singleton.1 hx]
        exact h2.1 w hw) h2.2

theorem drop_keeps (p : Bytes → Bool) (l : List Bytes) (x : Bytes) (hx : x ∈ l) (hp : p x = false) : x ∈ dropFirst p l := by
  induction l with
  | nil => cases hx
  | cons y l ih =>
    rw [dropFirst]
    by_cases hy : p y = true
    · rw [if_pos hy]
      rcases List.mem_cons.1 hx with rfl | h
      · rw [hp] at hy; cases hy
      · exact h
    · rw [if_neg hy]
      rcases List.mem_cons.1 hx with rfl | h
      · exact List.mem_cons_self ..
      · exact List.mem_cons_of_mem _ (ih h)

theorem delete_ok (m : Bytes → Bytes → Bool) (heq : ∀ x y z, m x y = true → m x z = true → m y z = true) (vs : List Bytes) : ∀ cur : List Bytes, (∀ v ∈ vs, ∃ x ∈ cur, m x v = true) →
    vs.Pairwise (fun x y => m x y = false) → ∃ l, srvDelete m cur vs = .ok l := by
  induction vs with
  | nil => exact fun cur _ _ => ⟨cur, rfl⟩
  | cons v vs ih =>
    intro cur h1 h2
    rw [List.pairwise_cons] at h2
    have hv : cur.any (fun x => m x v) = true := by
      obtain ⟨x, hx, hm⟩ := h1 v (List.mem_cons_self ..)
      exact List.any_eq_true.2 ⟨x, hx, hm⟩
    rw [srvDelete, hv]
    simp only [if_true]
    refine ih _ (fun w hw => ?_) h2.2
    obtain ⟨x, hx, hm⟩ := h1 w (List.mem_cons_of_mem _ hw)
    refine ⟨x, drop_keeps _ _ _ hx ?_, hm⟩
    cases hxv : m x v with
    | false => rfl
    | true =>
      have := heq x v w hxv hm
      rw [h2.1 w hw] at this
      cases this

variable {mo : Str → Bytes → Bytes → Bool} {norm : Str → Str} {at_ : D → Str → Option (Spec.Entry Bytes)}

theorem mods_done (hw : Willing dir contents peer) (env : Api.Env V R) (hu : Usable env) (next : Nat) (dn : Str) (d : D) {names : List Str} {part : List (Change Bytes) → Prop} {e : Spec.Entry Bytes}
    (ho : Open_ mo norm dir at_ env d next dn names part e) (l : Link Received.Decoded S) (hr : SessionP.Ready l.st) (hd : contents l.peer = d)
    (hl : l.st.next = next ∨ l.st.next = next + 1) (mods : List (Mod AVal)) (current : Option (AttrsDict AVal)) (h1 : ∀ md ∈ mods, md.op = .add → md.vals ≠ .deleteAll)
    (h2 : env.opts.error = true → ∀ md ∈ mods, md.op ≠ .add → md.vals ≠ .list []) (hp : part (mods.filterMap (changeOf env.opts)))
    (hn : ((mods.filterMap (changeOf env.opts)).map (fun c => env.lower c.attr)).Nodup) (hok : ∀ c ∈ mods.filterMap (changeOf env.opts), ∃ e', srvChange env.lower mo e c = .ok e') :
    (Api.modifyWith codec (fun d => d.1.1) peer env l dn current (.ok mods)).2 = .ok .done := by
  obtain ⟨e', he'⟩ := changes_ok env.lower mo _ e hn hok
  refine modify_done hw env hu l hr dn mods current h1 h2 (fun _ => ⟨ho.fits _ _ hl hp, ?_⟩)
  rw [hd]
  exact ho.accepted _ e' hp he'

theorem searchAll_next (env : Api.Env V R) (l : Link Received.Decoded S) (a : SearchArgs V) (items : List (Search.Item Received.Entry R))
    (hi : (Api.searchAll codec (fun d => d.1.1) peer env l a).2 = .ok items) : (Api.searchAll codec (fun d => d.1.1) peer env l a).1.st.next = l.st.next + 1 := by
  simp only [Api.searchAll] at hi ⊢
  cases hsr : ldapSearch env.conn a with
  | error e => rw [hsr] at hi; cases hi
  | ok sent =>
    simp only []
    cases send l.st.next (Call.search sent.req).op sent.ctrls with
    | none => rfl
    | some bs => rfl

theorem getOne_next (hw : Willing dir contents peer) (env : Api.Env V R) (hu : Usable env) (l : Link Received.Decoded S) (hr : SessionP.Ready l.st) (dn : Str) (attrs : Option (List Str)) (kwds : PDict Str (Controls.Kwd V))
    (ha : Answerable dir env (contents l.peer) l.st.next (Api.getArgs dn attrs kwds)) : (Api.getOne codec (fun d => d.1.1) peer env l dn attrs kwds).1.st.next = l.st.next + 1 := by
  obtain ⟨items, hi⟩ := search_done hw env l hr _ ha
  have key := searchAll_next env l (Api.getArgs dn attrs kwds) items hi
  simp only [Api.getOne, hu.bound, Bool.false_eq_true, if_false]
  revert hi key
  rcases Api.searchAll codec (fun d => d.1.1) peer env l (Api.getArgs dn attrs kwds) with ⟨l', r⟩
  intro hi key
  dsimp only at hi
  subst hi
  exact key

/-- reading the entry gives its values -/
theorem current_done {G : Str → AVal → Prop} (hw : Willing dir contents peer) (env : Api.Env V R) (hu : Usable env) (hE : Entries env.lower mo norm dir at_) (l : Link Received.Decoded S)
    (hr : SessionP.Ready l.st) (dn : Str) {names : List Str} {part : List (Change Bytes) → Prop} {e : Spec.Entry Bytes} (ho : Open_ mo norm dir at_ env (contents l.peer) l.st.next dn names part e)
    (hg : GoodEntry env.lower G (seen e)) :
    ∃ l' d, Api.currentFor codec (fun d => d.1.1) peer env l dn names = (l', .ok d) ∧ SessionP.Ready l'.st ∧ contents l'.peer = contents l.peer ∧ l'.st.next = l.st.next + 1 ∧
      GoodAttrs env.lower G d ∧ ∀ a ∈ names, AttrsDict.getAttr env.lower d a = seen e (env.lower a) := by
  obtain ⟨i, hi⟩ := get_done hw env hu l hr dn (some names) [] ho.read ho.one
  have hnext := getOne_next hw env hu l hr dn (some names) [] ho.read
  have hstep := current_step (serves hw) env hE l hr dn (G := G) (fun e' he' => by rw [ho.there] at he'; cases he'; exact hg) names
  have hshow := (getOne_step env (serves hw) l hr dn (some names) []).2.1 i hi
  revert hstep
  simp only [Api.currentFor]
  revert hi hnext
  rcases Api.getOne codec (fun d => d.1.1) peer env l dn (some names) [] with ⟨l', r⟩
  intro hi hnext
  dsimp only at hi
  subst hi
  obtain ⟨_, e0, _, _, hsh⟩ := hshow
  cases hsh with
  | cons hsh _ =>
    obtain ⟨attrs, rfl, _⟩ := hsh
    rintro ⟨s1, s2, s3⟩
    obtain ⟨e', k1, k2, k3⟩ := s3 _ rfl
    rw [ho.there] at k1
    cases k1
    exact ⟨l', _, rfl, s2 nofun nofun, s1, hnext, k2, k3⟩

theorem filterMap_names {A : Type} (f : Str × A → Option (Change Bytes)) (hf : ∀ kv c, f kv = some c → c.attr = kv.1) (new : List (Str × A)) :
    ((new.filterMap f).map (·.attr)).Sublist (new.map Prod.fst) := by
  induction new with
  | nil => exact .slnil
  | cons kv new ih =>
    cases h : f kv with
    | none => rw [List.filterMap_cons_none h, List.map_cons]; exact ih.cons _
    | some c => rw [List.filterMap_cons_some h, List.map_cons, List.map_cons, hf kv c h]; exact ih.cons_cons _

/-- the modifications that are made of the attributes named, one at most for each -/
theorem named_done (hw : Willing dir contents peer) (env : Api.Env V R) (hu : Usable env) {A : Type} (new : List (Str × A)) (hn : (new.map (fun kv => env.lower kv.1)).Nodup) (next : Nat) (dn : Str) (d : D)
    {names : List Str} (op : ModOp) (asked : List (Str × List Bytes)) (hasked : asked.map Prod.fst = new.map Prod.fst) {e : Spec.Entry Bytes} (ho : Open_ mo norm dir at_ env d next dn names (Part op asked) e) (l : Link Received.Decoded S)
    (hr : SessionP.Ready l.st) (hd : contents l.peer = d) (hl : l.st.next = next ∨ l.st.next = next + 1) (f : Str × A → Option (Mod AVal)) (current : Option (AttrsDict AVal))
    (hf : ∀ kv md, f kv = some md → md.attr = kv.1) (h1 : ∀ kv ∈ new, ∀ md, f kv = some md → md.op = op ∧ (op = .add → md.vals ≠ .deleteAll) ∧ (env.opts.error = true → op ≠ .add → md.vals ≠ .list []) ∧
      ∀ c, changeOf env.opts md = some c → (∃ q ∈ asked, q.1 = kv.1 ∧ c.vals.Sublist q.2) ∧ ∃ e', srvChange env.lower mo e c = .ok e') :
    (Api.modifyWith codec (fun d => d.1.1) peer env l dn current (.ok (new.filterMap f))).2 = .ok .done := by
  have hattr : ∀ md c, changeOf env.opts md = some c → c.attr = md.attr ∧ c.op = md.op := by
    intro md c h
    obtain ⟨mop, attr, vals⟩ := md
    cases vals with
    | deleteAll => simp only [changeOf, Option.some.injEq] at h; rw [← h]; exact ⟨rfl, rfl⟩
    | list vs =>
      cases vs with
      | cons v vs => cases mop <;> (simp only [changeOf, Option.some.injEq] at h; rw [← h]; exact ⟨rfl, rfl⟩)
      | nil =>
        cases mop with
        | add => simp only [changeOf, Option.some.injEq] at h; rw [← h]; exact ⟨rfl, rfl⟩
        | replace =>
          simp only [changeOf] at h
          split at h
          · cases h
          · simp only [Option.some.injEq] at h; rw [← h]; exact ⟨rfl, rfl⟩
        | delete =>
          simp only [changeOf] at h
          split at h
          · cases h
          · simp only [Option.some.injEq] at h; rw [← h]; exact ⟨rfl, rfl⟩
  have hmem : ∀ md ∈ new.filterMap f, ∃ kv ∈ new, f kv = some md := fun md h => List.mem_filterMap.1 h
  have hcs : (new.filterMap f).filterMap (changeOf env.opts) = new.filterMap (fun kv => (f kv).bind (changeOf env.opts)) := List.filterMap_filterMap ..
  have hsub : (((new.filterMap f).filterMap (changeOf env.opts)).map (·.attr)).Sublist (new.map Prod.fst) := by
    rw [hcs]
    refine filterMap_names _ (fun kv c h => ?_) new
    cases hk : f kv with
    | none => rw [hk] at h; cases h
    | some md => rw [hk] at h; rw [(hattr md c h).1, hf kv md hk]
  have hmem2 : ∀ c ∈ (new.filterMap f).filterMap (changeOf env.opts), ∃ kv ∈ new, ∃ md, f kv = some md ∧ changeOf env.opts md = some c := by
    intro c hc
    obtain ⟨md, hmd, hc⟩ := List.mem_filterMap.1 hc
    obtain ⟨kv, hkv, hk⟩ := hmem md hmd
    exact ⟨kv, hkv, md, hk, hc⟩
  refine mods_done hw env hu next dn d ho l hr hd hl _ current (fun md hmd hop => ?_) (fun he md hmd hop => ?_) ⟨by rw [hasked]; exact hsub, fun c hc => ?_⟩ ?_ (fun c hc => ?_)
  · obtain ⟨kv, hkv, hk⟩ := hmem md hmd
    have := h1 kv hkv md hk
    exact this.2.1 (this.1.symm.trans hop)
  · obtain ⟨kv, hkv, hk⟩ := hmem md hmd
    have := h1 kv hkv md hk
    exact this.2.2.1 he (fun h => hop (this.1.trans h))
  · obtain ⟨kv, hkv, md, hk, hc⟩ := hmem2 c hc
    have := h1 kv hkv md hk
    obtain ⟨⟨q, hq, hq1, hq2⟩, _⟩ := this.2.2.2 c hc
    exact ⟨(hattr md c hc).2.trans this.1, q, hq, by rw [(hattr md c hc).1, hf kv md hk, hq1], hq2⟩
  · have h2 := (hsub.map env.lower)
    rw [List.map_map, List.map_map] at h2
    exact List.Nodup.sublist h2 hn
  · obtain ⟨kv, hkv, md, hk, hc⟩ := hmem2 c hc
    exact ((h1 kv hkv md hk).2.2.2 c hc).2

end
end WillP
open Laurelin.Wire WireP WireR OverWire OverWireP DirP EntP WillP Spec.OverWireS Spec.DirectoryS Spec.EntriesS Spec.PatternsS Spec.WillingS
section
variable {V R S D : Type} {dir : Directory D} {contents : S → D} {peer : Peer S}

/-- **C93 (one call).** On a connection whose server refuses only what cannot be done, a call that can be sent and done returns. (What it has done then, and what it returns, is said by `c90_call`.) -/
theorem c93_call (hw : Willing dir contents peer) (env : Api.Env V R) (hu : Usable env) (l : Link Received.Decoded S) (hr : SessionP.Ready l.st) (c : Api.Call V) (hc : Doable dir env (contents l.peer) l.st.next c) :
    ∃ ret, (Api.call codec (fun d => d.1.1) peer env l c).2 = .ok ret := by
  cases c with
  | add dn attrs =>
    simp only [Api.call, ldapAdd, hu.bound, Bool.false_eq_true, if_false, (usable_ok env hu).1, accepts _ hu.adding]
    rw [update_done hw env hu l hr (.add dn attrs) trivial _ _ rfl trivial rfl (fun r h => ⟨r, rfl, h, rfl⟩) hc]
    exact ⟨_, rfl⟩
  | delete dn =>
    simp only [Api.call, hu.bound, Bool.false_eq_true, if_false, (usable_ok env hu).1]
    rw [update_done hw env hu l hr (.delete dn) trivial _ _ rfl trivial rfl (fun r h => ⟨r, rfl, h, rfl⟩) hc]
    exact ⟨_, rfl⟩
  | modDn dn rdn clean parent => exact modDn_done hw env hu l hr dn rdn clean parent hc
  | move dn newDn clean =>
    obtain ⟨rdn, parent, rfl, k1, k2, k3⟩ := hc
    simp only [Api.call, ldapMove]
    rw [split_ok parent rdn false nofun (fun a b hab => .inr (k1 a b hab)) k2]
    exact modDn_done hw env hu l hr dn rdn clean (some parent) k3
  | modify dn mods current => exact ⟨_, modify_done hw env hu l hr dn mods current hc.1 hc.2.1 hc.2.2⟩
  | compare dn attr value =>
    obtain ⟨b, hb⟩ := compare_done hw env hu l hr dn attr value hc
    simp only [Api.call, hu.bound, Bool.false_eq_true, if_false, (usable_ok env hu).1, hb]
    exact ⟨_, rfl⟩
  | search a =>
    obtain ⟨items, hi⟩ := search_done hw env l hr a hc
    simp only [Api.call]
    revert hi
    rcases Api.searchAll codec (fun d => d.1.1) peer env l a with ⟨l', r⟩
    intro hi
    dsimp only at hi
    subst hi
    exact ⟨_, rfl⟩
  | get_ dn attrs kwds =>
    obtain ⟨i, hi⟩ := get_done hw env hu l hr dn attrs kwds hc.1 hc.2
    simp only [Api.call]
    revert hi
    rcases Api.getOne codec (fun d => d.1.1) peer env l dn attrs kwds with ⟨l', r⟩
    intro hi
    dsimp only at hi
    subst hi
    exact ⟨_, rfl⟩
  | exists_ dn =>
    have h := exists_done hw env hu l hr dn (some [str "1.1"]) [] hc
    simp only [Api.call]
    revert h
    rcases Api.getOne codec (fun d => d.1.1) peer env l dn (some [str "1.1"]) [] with ⟨l', r⟩
    intro h
    dsimp only at h
    rcases h with ⟨i, rfl⟩ | rfl | rfl <;> exact ⟨_, rfl⟩

/-! ## The attribute methods -/
section
variable (hw : Willing dir contents peer) (env : Api.Env V R) (hu : Usable env) {mo : Str → Bytes → Bytes → Bool} {norm : Str → Str} {at_ : D → Str → Option (Spec.Entry Bytes)} (hE : Entries env.lower mo norm dir at_)
  (typeOf : TypeOf AVal) {G : Str → AVal → Prop} (hD : Decides typeOf (onBytes mo) G) (l : Link Received.Decoded S) (hr : SessionP.Ready l.st) (dn : Str) {e : Spec.Entry Bytes} (hg : GoodEntry env.lower G (seen e))
include hw hu hE hD hr hg

/-- **C93 (`add_attrs`).** Unless the connection is strict, and if a `current` object is given it shows the values that the entry has: adding values that differ from each other returns, whether the entry has
some of them already or not. (An empty list is accepted only for an attribute that has values.) -/
theorem c93_add_attrs (strict : Bool) (new : List (Str × List AVal)) (hn : (new.map (fun kv => env.lower kv.1)).Nodup) (ht : ∀ kv ∈ new, ∃ t, typeOf kv.1 = .ok t) (hv : ∀ kv ∈ new, ∀ v ∈ kv.2, G kv.1 v)
    (hdiff : ∀ kv ∈ new, (kv.2.map AVal.bytes).Pairwise (fun x y => mo kv.1 x y = false)) (hempty : ∀ kv ∈ new, kv.2 = [] → e (env.lower kv.1) ≠ [])
    (ho : Open_ mo norm dir at_ env (contents l.peer) l.st.next dn (new.map Prod.fst) (Part .add (new.map (fun kv => (kv.1, kv.2.map AVal.bytes)))) e) (current : Option (AttrsDict AVal)) (hs : current = none → strict = false)
    (hc : ∀ d, current = some d → GoodAttrs env.lower G d ∧ ∀ kv ∈ new, (AttrsDict.getAttr env.lower d kv.1).map AVal.bytes = e (env.lower kv.1)) :
    (Api.addAttrs codec (fun d => d.1.1) peer env typeOf strict l dn new current).2 = .ok .done := by
  have hn1 : (new.map Prod.fst).Nodup := by
    rw [show new.map (fun p => env.lower p.1) = (new.map Prod.fst).map env.lower by rw [List.map_map]; rfl] at hn
    exact List.Pairwise.of_map _ (fun a b hab hc => hab (by rw [hc])) hn
  have key : ∀ (l' : Link Received.Decoded S), SessionP.Ready l'.st → contents l'.peer = contents l.peer → l'.st.next = l.st.next ∨ l'.st.next = l.st.next + 1 →
      ∀ d : AttrsDict AVal, GoodAttrs env.lower G d → (∀ kv ∈ new, (AttrsDict.getAttr env.lower d kv.1).map AVal.bytes = e (env.lower kv.1)) →
      (Api.modifyWith codec (fun d => d.1.1) peer env l' dn (some d) (addModlist env.lower typeOf d (new.map (fun kv => (kv.1, .list kv.2))))).2 = .ok .done := by
    intro l' hr' hpeer hl' d hgd hshow
    rw [(c05_add_modlist env.lower typeOf (onBytes mo) G hD d hgd new hn1 (fun a ha => by
      obtain ⟨kv, hkv, rfl⟩ := List.mem_map.1 ha
      exact ht kv hkv) hv).1 (fun kv hkv h0 h => hempty kv hkv h0 (by rw [← hshow kv hkv, h]; rfl))]
    exact named_done hw env hu new hn l.st.next dn (contents l.peer) .add _ (by rw [List.map_map]; rfl) ho l' hr' hpeer hl'
      (fun kv => if kv.2.filter (fun v => !knows env.lower (onBytes mo) d kv.1 v) = [] then none else some ⟨.add, kv.1, .list (kv.2.filter (fun v => !knows env.lower (onBytes mo) d kv.1 v))⟩) (some d)
      (fun kv md h => by
        split at h
        · cases h
        · cases h; rfl)
      (fun kv hkv md h => by
        split at h
        · cases h
        · rename_i hu'
          cases h
          refine ⟨rfl, fun _ => nofun, fun _ h => absurd rfl h, fun c hc => ?_⟩
          have hc' : c = ⟨.add, kv.1, (kv.2.filter (fun v => !knows env.lower (onBytes mo) d kv.1 v)).map AVal.bytes⟩ := by
            simp only [changeOf] at hc
            revert hc hu'
            cases kv.2.filter (fun v => !knows env.lower (onBytes mo) d kv.1 v) with
            | nil => exact fun h => absurd rfl h
            | cons v vs => intro _ hc; simpa using hc.symm
          subst hc'
          have hsub : (kv.2.filter (fun v => !knows env.lower (onBytes mo) d kv.1 v)).Sublist kv.2 := List.filter_sublist
          refine ⟨⟨(kv.1, kv.2.map AVal.bytes), List.mem_map.2 ⟨kv, hkv, rfl⟩, rfl, hsub.map _⟩, ?_⟩
          obtain ⟨l0, hl0⟩ := add_ok (mo kv.1) ((kv.2.filter (fun v => !knows env.lower (onBytes mo) d kv.1 v)).map AVal.bytes) (e (env.lower kv.1)) (fun b hb x hx => by
            obtain ⟨v, hv', rfl⟩ := List.mem_map.1 hb
            rw [← hshow kv hkv] at hx
            obtain ⟨w, hw', rfl⟩ := List.mem_map.1 hx
            have := (List.mem_filter.1 hv').2
            simp only [knows, Bool.not_eq_true', List.any_eq_false] at this
            have := this w hw'
            cases hm : mo kv.1 w.bytes v.bytes with
            | false => rfl
            | true => exact absurd hm this) ((hdiff kv hkv).sublist (hsub.map _))
          exact ⟨Entry.put env.lower e kv.1 l0, by simp only [srvChange, hl0]⟩)
  cases current with
  | some d => exact key l hr rfl (.inl rfl) d (hc d rfl).1 (hc d rfl).2
  | none =>
    rw [hs rfl]
    obtain ⟨l', d, k1, k2, k3, k4, k5, k6⟩ := current_done hw env hu hE l hr dn ho hg
    simp only [Api.addAttrs, Bool.false_eq_true, if_false, k1]
    exact key l' k2 k3 (.inr k4) d k5 (fun kv hkv => by rw [k6 kv.1 (List.mem_map_of_mem hkv)]; simp only [seen, List.map_map, Function.comp_def, bytes_shown, List.map_id'])

/-- **C93 (`delete_attrs`).** Likewise: deleting values that differ from each other returns, whether the entry has them or not. (Matching is symmetric and transitive; with `error_empty_list` no empty lists are given.) -/
theorem c93_delete_attrs (strict : Bool) (del : List (Str × Vals AVal)) (hn : (del.map (fun kv => env.lower kv.1)).Nodup) (ht : ∀ kv ∈ del, ∃ t, typeOf kv.1 = .ok t)
    (hv : ∀ kv ∈ del, ∀ vs, kv.2 = .list vs → ∀ v ∈ vs, G kv.1 v) (heq : ∀ a x y z, mo a x y = true → mo a x z = true → mo a y z = true)
    (hdiff : ∀ kv ∈ del, (replacing kv.2).Pairwise (fun x y => mo kv.1 x y = false)) (hempty : env.opts.error = true → ∀ kv ∈ del, kv.2 ≠ .list [])
    (ho : Open_ mo norm dir at_ env (contents l.peer) l.st.next dn (del.map Prod.fst) (Part .delete (del.map (fun kv => (kv.1, replacing kv.2)))) e) (current : Option (AttrsDict AVal)) (hs : current = none → strict = false)
    (hc : ∀ d, current = some d → GoodAttrs env.lower G d ∧ ∀ kv ∈ del, (AttrsDict.getAttr env.lower d kv.1).map AVal.bytes = e (env.lower kv.1)) :
    (Api.deleteAttrs codec (fun d => d.1.1) peer env typeOf strict l dn del current).2 = .ok .done := by
  have hn1 : (del.map Prod.fst).Nodup := by
    rw [show del.map (fun p => env.lower p.1) = (del.map Prod.fst).map env.lower by rw [List.map_map]; rfl] at hn
    exact List.Pairwise.of_map _ (fun a b hab hc => hab (by rw [hc])) hn
  have key : ∀ (l' : Link Received.Decoded S), SessionP.Ready l'.st → contents l'.peer = contents l.peer → l'.st.next = l.st.next ∨ l'.st.next = l.st.next + 1 →
      ∀ d : AttrsDict AVal, GoodAttrs env.lower G d → (∀ kv ∈ del, (AttrsDict.getAttr env.lower d kv.1).map AVal.bytes = e (env.lower kv.1)) →
      (Api.modifyWith codec (fun d => d.1.1) peer env l' dn (some d) (deleteModlist env.lower typeOf d del)).2 = .ok .done := by
    intro l' hr' hpeer hl' d hgd hshow
    rw [c06_delete_modlist env.lower typeOf (onBytes mo) G hD d hgd del hn1 (fun a ha => by
      obtain ⟨kv, hkv, rfl⟩ := List.mem_map.1 ha
      exact ht kv hkv) hv]
    unfold delWanted
    refine named_done hw env hu del hn l.st.next dn (contents l.peer) .delete _ (by rw [List.map_map]; rfl) ho l' hr' hpeer hl' _ (some d) (fun kv md h => ?_) (fun kv hkv md h => ?_)
    · obtain ⟨a, vs⟩ := kv
      simp only at h
      split at h
      · cases h
      · cases vs with
        | deleteAll => simp only [Option.some.injEq] at h; rw [← h]
        | list vs =>
          cases vs with
          | nil => simp only [Option.some.injEq] at h; rw [← h]
          | cons v vs =>
            simp only at h
            split at h
            · cases h
            · simp only [Option.some.injEq] at h; rw [← h]
    · have hin : (kv.1, replacing kv.2) ∈ del.map (fun kv => (kv.1, replacing kv.2)) := List.mem_map.2 ⟨kv, hkv, rfl⟩
      have hsh := hshow kv hkv
      have hem := fun h => hempty h kv hkv
      have hdf := hdiff kv hkv
      obtain ⟨a, vs⟩ := kv
      simp only at h hsh hin hem hdf
      split at h
      · cases h
      · rename_i hne
        have hne' : e (env.lower a) ≠ [] := fun h0 => hne (List.map_eq_nil_iff.1 (hsh.trans h0))
        have hgone : ∃ e', srvChange env.lower mo e ⟨.delete, a, []⟩ = .ok e' := ⟨Entry.put env.lower e a [], by simp only [srvChange, if_true, if_neg hne']⟩
        cases vs with
        | deleteAll =>
          simp only [Option.some.injEq] at h
          subst h
          refine ⟨rfl, nofun, fun _ _ => nofun, fun c hc => ?_⟩
          simp only [changeOf, Option.some.injEq] at hc
          subst hc
          exact ⟨⟨_, hin, rfl, List.nil_sublist _⟩, hgone⟩
        | list vs =>
          cases vs with
          | nil =>
            simp only [Option.some.injEq] at h
            subst h
            refine ⟨rfl, nofun, fun he _ => hem he, fun c hc => ?_⟩
            simp only [changeOf] at hc
            split at hc
            · cases hc
            · simp only [Option.some.injEq] at hc
              subst hc
              exact ⟨⟨_, hin, rfl, List.nil_sublist _⟩, hgone⟩
          | cons v vs =>
            simp only at h
            split at h
            · cases h
            · rename_i hu'
              simp only [Option.some.injEq] at h
              subst h
              refine ⟨rfl, nofun, fun _ _ h0 => ?_, fun c hc => ?_⟩
              · simp only [Vals.list.injEq] at h0
                exact hu' h0
              · have hsub : ((v :: vs).filter (fun v => knows env.lower (onBytes mo) d a v)).Sublist (v :: vs) := List.filter_sublist
                have hmem : ∀ w ∈ (v :: vs).filter (fun v => knows env.lower (onBytes mo) d a v), knows env.lower (onBytes mo) d a w = true := fun w hw => (List.mem_filter.1 hw).2
                revert hc hu' hsub hmem
                generalize (v :: vs).filter (fun v => knows env.lower (onBytes mo) d a v) = u
                intro hu' hc hsub hmem
                have hc' : c = ⟨.delete, a, u.map AVal.bytes⟩ := by
                  cases u with
                  | nil => exact absurd rfl hu'
                  | cons w ws => simpa [changeOf] using hc.symm
                subst hc'
                refine ⟨⟨_, hin, rfl, hsub.map _⟩, ?_⟩
                obtain ⟨l0, hl0⟩ := delete_ok (mo a) (heq a) (u.map AVal.bytes) (e (env.lower a)) (fun b hb => by
                  obtain ⟨w, hw', rfl⟩ := List.mem_map.1 hb
                  have := hmem w hw'
                  simp only [knows, List.any_eq_true] at this
                  obtain ⟨x, hx, hm⟩ := this
                  exact ⟨x.bytes, by rw [← hsh]; exact List.mem_map_of_mem hx, hm⟩) (hdf.sublist (hsub.map AVal.bytes))
                exact ⟨Entry.put env.lower e a l0, by simp only [srvChange, hl0, List.map_eq_nil_iff, if_neg hu']⟩
  cases current with
  | some d => exact key l hr rfl (.inl rfl) d (hc d rfl).1 (hc d rfl).2
  | none =>
    rw [hs rfl]
    obtain ⟨l', d, k1, k2, k3, k4, k5, k6⟩ := current_done hw env hu hE l hr dn ho hg
    simp only [Api.deleteAttrs, Bool.false_eq_true, if_false, k1]
    exact key l' k2 k3 (.inr k4) d k5 (fun kv hkv => by rw [k6 kv.1 (List.mem_map_of_mem hkv)]; simp only [seen, List.map_map, Function.comp_def, bytes_shown, List.map_id'])

omit hD in
/-- **C93 (`replace_attrs`).** Replacing the values of an entry that is there returns. -/
theorem c93_replace_attrs (strict : Bool) (new : List (Str × Vals AVal)) (hn : (new.map (fun kv => env.lower kv.1)).Nodup) (hempty : env.opts.error = true → ∀ kv ∈ new, kv.2 ≠ .list [])
    (ho : Open_ mo norm dir at_ env (contents l.peer) l.st.next dn (new.map Prod.fst) (Part .replace (new.map (fun kv => (kv.1, replacing kv.2)))) e) (current : Option (AttrsDict AVal)) :
    (Api.replaceAttrs codec (fun d => d.1.1) peer env strict l dn new current).2 = .ok .done := by
  have key : ∀ (l' : Link Received.Decoded S), SessionP.Ready l'.st → contents l'.peer = contents l.peer → l'.st.next = l.st.next ∨ l'.st.next = l.st.next + 1 → ∀ current : Option (AttrsDict AVal),
      (Api.modifyWith codec (fun d => d.1.1) peer env l' dn current (modlist .replace (new.map (fun kv => (kv.1, .vals kv.2))))).2 = .ok .done := by
    intro l' hr' hpeer hl' current
    rw [modlist_ok .replace new (fun h => by cases h), show new.map (fun kv => (⟨.replace, kv.1, kv.2⟩ : Mod AVal)) = new.filterMap (fun kv => some ⟨.replace, kv.1, kv.2⟩) by rw [List.filterMap_eq_map']]
    refine named_done hw env hu new hn l.st.next dn (contents l.peer) .replace _ (by rw [List.map_map]; rfl) ho l' hr' hpeer hl' _ current (fun kv md h => by cases h; rfl) (fun kv hkv md h => ?_)
    cases h
    refine ⟨rfl, nofun, fun he _ => hempty he kv hkv, fun c hc => ?_⟩
    have hin : (kv.1, replacing kv.2) ∈ new.map (fun kv => (kv.1, replacing kv.2)) := List.mem_map.2 ⟨kv, hkv, rfl⟩
    obtain ⟨a, vs⟩ := kv
    cases vs with
    | deleteAll =>
      simp only [changeOf, Option.some.injEq] at hc
      subst hc
      exact ⟨⟨_, hin, rfl, List.nil_sublist _⟩, _, rfl⟩
    | list vs =>
      cases vs with
      | nil =>
        simp only [changeOf] at hc
        split at hc
        · cases hc
        · simp only [Option.some.injEq] at hc
          subst hc
          exact ⟨⟨_, hin, rfl, List.nil_sublist _⟩, _, rfl⟩
      | cons v vs =>
        simp only [changeOf, Option.some.injEq] at hc
        subst hc
        exact ⟨⟨_, hin, rfl, List.Sublist.refl _⟩, _, rfl⟩
  simp only [Api.replaceAttrs]
  split
  · obtain ⟨l', d, k1, k2, k3, k4, k5, k6⟩ := current_done hw env hu hE l hr dn ho hg
    simp only [k1]
    exact key l' k2 k3 (.inr k4) (some d)
  · exact key l hr rfl (.inl rfl) current

end
/-- **C93 (`add_if_not_exists`).** If reading the DN gives one entry, or none and the entry can be made (by the next request, without controls), the call returns an object. -/
theorem c93_if_not_exists (hw : Willing dir contents peer) (env : Api.Env V R) (hu : Usable env) (l : Link Received.Decoded S) (hr : SessionP.Ready l.st) (dn : Str) (attrs : List (Str × List AVal))
    (ha : Answerable dir env (contents l.peer) l.st.next { base := dn, scope := .base, limit := 2 })
    (h1 : ∀ op found, SearchFor env.conn { base := dn, scope := .base, limit := 2 } op → dir.finds (contents l.peer) op found →
      (∃ p, found = [p]) ∨ (found = [] ∧ Possible dir (contents l.peer) (l.st.next + 1) (.addRequest (utf8Enc dn) (attrs.map Spec.Wire.ofAttr)) none)) :
    ∃ dn' obj, (Api.addIfNotExists codec (fun d => d.1.1) peer env l dn attrs).2 = .ok (.object dn' obj) := by
  have hnext := getOne_next hw env hu l hr dn none [] ha
  obtain ⟨s1, s2, s3, s4, s5⟩ := getOne_step env (serves hw) l hr dn none []
  have hx := exists_done hw env hu l hr dn none [] ha
  simp only [Api.addIfNotExists]
  revert hnext s1 s2 s3 s4 s5 hx
  rcases Api.getOne codec (fun d => d.1.1) peer env l dn none [] with ⟨l', r⟩
  intro hnext s1 s2 s3 s4 s5 hx
  dsimp only at hnext s1 s2 s3 s4 s5 hx
  rcases hx with ⟨i, rfl⟩ | rfl | rfl
  · obtain ⟨_, e, _, _, hsh⟩ := s2 i rfl
    cases hsh with
    | cons hsh _ =>
      obtain ⟨at', rfl, _⟩ := hsh
      exact ⟨_, _, rfl⟩
  · obtain ⟨op, k1, k2⟩ := s3 rfl rfl
    rcases h1 op [] k1 k2 with ⟨p, hp⟩ | ⟨_, hp⟩
    · cases hp
    · have hu' : Usable env.plain := ⟨hu.bound, hu.adding, hu.modifying, ⟨none, rfl, nofun⟩⟩
      obtain ⟨ret, hret⟩ := c93_call hw env.plain hu' l' (s5 nofun nofun) (.add dn attrs) (by
        show Possible dir (contents l'.peer) l'.st.next _ none
        rw [s1, hnext]
        exact hp)
      have heff := (c90_call (serves hw) env.plain l' (s5 nofun nofun) (.add dn attrs)).1
      rw [hret] at heff
      obtain ⟨_, obj, rfl, _⟩ := heff
      exact ⟨dn, obj, hret⟩
  · obtain ⟨op, found, k1, k2, k3⟩ := s4 rfl rfl
    exfalso
    rcases h1 op found k1 k2 with ⟨p, rfl⟩ | ⟨rfl, _⟩
    · exact k3.2 p rfl
    · exact k3.1 rfl

/-- **C93 (such servers exist).** For every meaning of the operations. -/
theorem c93_server_exists {D : Type} (dir : Directory D) : ∃ peer : Peer D, Willing dir (fun d => d) peer := by
  have key := DirP.server_step dir
  refine ⟨fun d bs => Classical.choose (key d bs), ⟨fun s bs mid op resp ctrls h1 h2 h3 => ?_, fun s bs mid dn attr value ctrls h1 h2 => ?_, fun s bs mid op ctrls h1 h2 h3 => ?_⟩⟩
  · exact (Classical.choose_spec (key s bs)).1 mid op resp ctrls h1 h2 h3
  · obtain ⟨h3, r, h4, h5, h6, h7⟩ := (Classical.choose_spec (key s bs)).2.1 mid dn attr value ctrls h1 h2
    exact ⟨h3, r, h5, h4.imp (fun h => ⟨h, h6 h⟩) (fun h => ⟨h, h7 h⟩)⟩
  · obtain ⟨k0, found, r, k1, k2, k3, k4, k5, k6⟩ := (Classical.choose_spec (key s bs)).2.2 mid op ctrls h1 h2 h3
    refine ⟨k0, found, r, k1, k3, k4, k5, fun h => ?_, fun h => absurd h k2, fun ⟨f, f1, f2, f3⟩ => ?_⟩
    · rcases k6 with k6 | k6
      · exact k6.2
      · exact absurd h k6.1
    · rcases k6 with k6 | k6
      · exact .inl k6.1
      · exact absurd f3 (k6.2 f f1 f2)


/-! ## A directory with one entry or none, `PatP.pDir`, and a server that is willing -/
namespace WillP
open PatP
set_option maxRecDepth 100000

noncomputable def wPeer : Peer (Option (List Bytes)) := Classical.choose (c93_server_exists pDir)
theorem w_willing : Willing pDir (fun d => d) wPeer := Classical.choose_spec (c93_server_exists pDir)

theorem fits_of (mid : Int) (op : Spec.Wire.Op) (c : Option (List Controls.Wire)) (h : (encode filterAlts ldapMessage (messageV (Spec.Wire.message mid op c))).isSome = true) : Fits mid op c := by
  obtain ⟨bs, hb⟩ := Option.isSome_iff_exists.1 h
  have := WireR.has_enc _ bs hb
  exact ⟨this.1, bs, this.2⟩

theorem w_usable : Usable DirP.sampleEnv := ⟨rfl, nofun, nofun, none, rfl, nofun⟩

/-- the entry, or that there is none, can be read, whichever attributes are asked for -/
theorem w_read (d : Option (List Bytes)) (hd : d = none ∨ d = some [[97]]) (attrs : Option (List Str)) (ha : attrs = none ∨ attrs = some [str "CN"] ∨ attrs = some [str "1.1"]) :
    Answerable pDir DirP.sampleEnv d 1 { base := str "o", scope := .base, attrs := attrs, limit := 2 } := by
  have step : ∀ sent op, ldapSearch DirP.sampleEnv.conn { base := str "o", scope := .base, attrs := attrs, limit := 2 } = .ok sent → Spec.Wire.asks (.search sent.req) = some op →
      (encode filterAlts ldapMessage (messageV (Spec.Wire.message 1 op none))).isSome = true → (∃ deref size time f as, op = readOp (str "o") deref size time f as) →
      Answerable pDir DirP.sampleEnv d 1 { base := str "o", scope := .base, attrs := attrs, limit := 2 } := by
    rintro sent op h1 h2 h3 ⟨deref, size, time, f, as, h4⟩
    refine ⟨rfl, ((c65_sent _ _ sent).1 h1).1, op, (DirP.search_request _ _ sent h1 op h2).1, fits_of 1 op none h3, ?_⟩
    rcases hd with rfl | rfl
    · exact ⟨[], ⟨str "o", deref, size, time, f, as, by decide, h4, rfl⟩, nofun, nofun⟩
    · have he := WireR.has_enc ⟨1, entryOp (str "O", [(str "cn", [[97]])]), none⟩ PatP.entryBytes (by decide +kernel)
      refine ⟨[(str "O", [(str "cn", [[97]])])], ⟨str "o", deref, size, time, f, as, by decide, h4, rfl⟩, ?_, ?_⟩
      · intro e he
        rw [List.mem_singleton.1 he]
        decide
      · intro e hm
        rw [List.mem_singleton.1 hm]
        exact ⟨PatP.entryBytes, he.2⟩
  rcases ha with rfl | rfl | rfl
  · exact step ⟨⟨str "o", .base, 0, 2, 0, false, .present (str "objectClass"), [str "*"]⟩, none, true, true, []⟩ _ rfl rfl (by decide +kernel) ⟨0, 2, 0, _, [str "*"], rfl⟩
  · exact step ⟨⟨str "o", .base, 0, 2, 0, false, .present (str "objectClass"), [str "CN"]⟩, none, true, true, []⟩ _ rfl rfl (by decide +kernel) ⟨0, 2, 0, _, [str "CN"], rfl⟩
  · exact step ⟨⟨str "o", .base, 0, 2, 0, false, .present (str "objectClass"), [str "1.1"]⟩, none, true, true, []⟩ _ rfl rfl (by decide +kernel) ⟨0, 2, 0, _, [str "1.1"], rfl⟩

theorem w_one (vs : List Bytes) (op : Spec.Wire.Op) (found : List Found) (h : pDir.finds (some vs) op found) : ∃ p, found = [p] := by
  obtain ⟨_, _, _, _, _, _, _, _, rfl⟩ := h
  exact ⟨_, rfl⟩

theorem w_part (k : ModOp) (a : Str) (x y : Bytes) (cs : List (Change Bytes)) (h : Part k [(a, [x, y])] cs) :
    cs = [] ∨ cs = [⟨k, a, []⟩] ∨ cs = [⟨k, a, [x]⟩] ∨ cs = [⟨k, a, [y]⟩] ∨ cs = [⟨k, a, [x, y]⟩] := by
  obtain ⟨h1, h2⟩ := h
  cases cs with
  | nil => exact .inl rfl
  | cons c l =>
    have hl : l = [] := by
      have := h1.length_le
      simp only [List.map_cons, List.length_cons, List.map_nil, List.length_nil, List.length_map] at this
      exact List.length_eq_zero_iff.1 (by omega)
    subst hl
    obtain ⟨k1, kv, hkv, k2, k3⟩ := h2 c (List.mem_singleton.2 rfl)
    rw [List.mem_singleton.1 hkv] at k2 k3
    obtain ⟨o, at', vs⟩ := c
    dsimp only at k1 k2 k3
    subst k1 k2
    have : vs = [] ∨ vs = [x] ∨ vs = [y] ∨ vs = [x, y] := by
      cases k3 with
      | cons _ k3 =>
        cases k3 with
        | cons _ k3 => cases k3; exact .inl rfl
        | cons_cons _ k3 => cases k3; exact .inr (.inr (.inl rfl))
      | cons_cons _ k3 =>
        cases k3 with
        | cons _ k3 => cases k3; exact .inr (.inl rfl)
        | cons_cons _ k3 => cases k3; exact .inr (.inr (.inr rfl))
    rcases this with rfl | rfl | rfl | rfl <;> simp

/-- what the entry has is `a`; `a` and `b` are added, deleted, or put in place of it -/
theorem w_open (k : ModOp) : Open_ eqb lc pDir atP DirP.sampleEnv (some [[97]]) 1 (str "o") [str "CN"] (Part k [(str "CN", [[97], [98]])]) (ent [[97]]) where
  there := rfl
  read := w_read _ (.inr rfl) _ (.inr (.inl rfl))
  one := fun op found _ h => w_one _ op found h
  accepted := by
    intro cs e' hp h
    have hput : ∀ vs, Entry.put lc (ent [[97]]) (str "CN") vs = ent vs := by
      intro vs
      funext x
      have hcn : lc (str "CN") = str "cn" := by decide
      simp only [Entry.put, ent, hcn]
      by_cases hx : x = str "cn" <;> simp [hx]
    have hone : ∀ c : Change Bytes, c.attr = str "CN" → ∀ e1, srvChange lc eqb (ent [[97]]) c = .ok e1 → ∃ vs, e1 = ent vs := by
      rintro ⟨o, a, vs⟩ rfl e1 h1
      revert h1
      unfold srvChange
      cases o <;> dsimp only
      · cases srvAdd (eqb (str "CN")) (ent [[97]] (lc (str "CN"))) vs with
        | ok l => exact fun h1 => ⟨l, by cases h1; exact hput l⟩
        | error x => exact fun h1 => by cases h1
      · exact fun h1 => ⟨vs, by cases h1; exact hput vs⟩
      · by_cases hv : vs = []
        · rw [if_pos hv]
          by_cases h0 : ent [[97]] (lc (str "CN")) = []
          · rw [if_pos h0]
            exact fun h1 => by cases h1
          · rw [if_neg h0]
            exact fun h1 => ⟨[], by cases h1; exact hput []⟩
        · rw [if_neg hv]
          cases srvDelete (eqb (str "CN")) (ent [[97]] (lc (str "CN"))) vs with
          | ok l => exact fun h1 => ⟨l, by cases h1; exact hput l⟩
          | error x => exact fun h1 => by cases h1
    have hcs : cs = [] ∨ ∃ c : Change Bytes, c.attr = str "CN" ∧ cs = [c] := by
      rcases w_part _ _ _ _ _ hp with rfl | rfl | rfl | rfl | rfl
      · exact .inl rfl
      all_goals exact .inr ⟨_, rfl, rfl⟩
    have : ∃ vs, e' = ent vs := by
      rcases hcs with rfl | ⟨c, hc, rfl⟩
      · cases h
        exact ⟨_, rfl⟩
      · have h : srvModify lc eqb (ent [[97]]) [c] = .ok e' := h
        simp only [srvModify] at h
        cases h1 : srvChange lc eqb (ent [[97]]) c with
        | ok e1 =>
          rw [h1] at h
          cases h
          exact hone c hc _ h1
        | error x =>
          rw [h1] at h
          cases h
    obtain ⟨vs, rfl⟩ := this
    exact ⟨some vs, .inl ⟨str "o", cs, [[97]], vs, by decide, rfl, rfl, rfl, h⟩⟩
  fits := by
    intro mid cs hm hp
    have hmid : (mid : Int) = 1 ∨ (mid : Int) = 2 := by omega
    generalize (mid : Int) = i at hmid
    rcases hmid with rfl | rfl <;> rcases w_part _ _ _ _ _ hp with rfl | rfl | rfl | rfl | rfl <;> cases k <;> exact fits_of _ _ _ (by decide +kernel)

theorem w_vals : ∀ v ∈ [AVal.text (str "a"), AVal.text (str "b")], Spec.Wire.Shows v.bytes v := by
  intro v hv
  simp only [List.mem_cons, List.not_mem_nil, or_false] at hv
  rcases hv with rfl | rfl <;> rfl

end WillP
open PatP

/-- adding and deleting what the entry has and has not, and replacing: they all return -/
example :
    (Api.addAttrs codec (fun d => d.1.1) wPeer DirP.sampleEnv (fun _ => .ok (.default : AttrType AVal)) false ⟨Session.St.init, some [[97]]⟩ (str "o") [(str "CN", [.text (str "a"), .text (str "b")])] none).2 = .ok .done ∧
    (Api.deleteAttrs codec (fun d => d.1.1) wPeer DirP.sampleEnv (fun _ => .ok (.default : AttrType AVal)) false ⟨Session.St.init, some [[97]]⟩ (str "o") [(str "CN", .list [.text (str "a"), .text (str "b")])] none).2 = .ok .done ∧
    (Api.replaceAttrs codec (fun d => d.1.1) wPeer DirP.sampleEnv false ⟨Session.St.init, some [[97]]⟩ (str "o") [(str "CN", .list [.text (str "a"), .text (str "b")])] none).2 = .ok .done := by
  refine ⟨c93_add_attrs (mo := eqb) (norm := lc) (at_ := atP) (G := fun _ v => Spec.Wire.Shows v.bytes v) (e := ent [[97]]) w_willing DirP.sampleEnv w_usable p_entries _ OverWireP.octets_decide ⟨Session.St.init, some [[97]]⟩ SessionP.ready_init (str "o") (p_good _) false
      [(str "CN", [.text (str "a"), .text (str "b")])] (by decide) (fun _ _ => ⟨_, rfl⟩) ?_ ?_ ?_ (w_open .add) none (fun _ => rfl) nofun,
    c93_delete_attrs (mo := eqb) (norm := lc) (at_ := atP) (G := fun _ v => Spec.Wire.Shows v.bytes v) (e := ent [[97]]) w_willing DirP.sampleEnv w_usable p_entries _ OverWireP.octets_decide ⟨Session.St.init, some [[97]]⟩ SessionP.ready_init (str "o") (p_good _) false
      [(str "CN", .list [.text (str "a"), .text (str "b")])] (by decide) (fun _ _ => ⟨_, rfl⟩) ?_ ?_ ?_ (by decide) (w_open .delete) none (fun _ => rfl) nofun,
    c93_replace_attrs (mo := eqb) (norm := lc) (at_ := atP) (G := fun _ v => Spec.Wire.Shows v.bytes v) (e := ent [[97]]) w_willing DirP.sampleEnv w_usable p_entries ⟨Session.St.init, some [[97]]⟩ SessionP.ready_init (str "o") (p_good _) false
      [(str "CN", .list [.text (str "a"), .text (str "b")])] (by decide) (by decide) (w_open .replace) none⟩
  · intro kv hkv
    rw [List.mem_singleton.1 hkv]
    exact w_vals
  · intro kv hkv
    rw [List.mem_singleton.1 hkv]
    decide
  · intro kv hkv
    rw [List.mem_singleton.1 hkv]
    exact nofun
  · intro kv hkv
    rw [List.mem_singleton.1 hkv]
    intro vs h
    cases h
    exact w_vals
  · intro a x y z h1 h2
    have h1 := of_decide_eq_true h1
    have h2 := of_decide_eq_true h2
    exact decide_eq_true (h1.symm.trans h2)
  · intro kv hkv
    rw [List.mem_singleton.1 hkv]
    decide

/-- reading the entry, asking whether it is there, and adding it where it is not -/
example : (∃ ret, (Api.call codec (fun d => d.1.1) wPeer DirP.sampleEnv ⟨Session.St.init, some [[97]]⟩ (.get_ (str "o") (some [str "CN"]) [])).2 = .ok ret) ∧
    (∃ ret, (Api.call codec (fun d => d.1.1) wPeer DirP.sampleEnv ⟨Session.St.init, none⟩ (.exists_ (str "o"))).2 = .ok ret) ∧
    (∃ ret, (Api.call codec (fun d => d.1.1) wPeer DirP.sampleEnv ⟨Session.St.init, none⟩ (.add (str "o") [(str "CN", [.text (str "a"), .text (str "b")])])).2 = .ok ret) ∧
    (∀ d, d = none ∨ d = some [[97]] → ∃ dn' obj, (Api.addIfNotExists codec (fun d => d.1.1) wPeer DirP.sampleEnv ⟨Session.St.init, d⟩ (str "o") [(str "CN", [.text (str "a"), .text (str "b")])]).2 = .ok (.object dn' obj)) := by
  have hadd : ∀ mid : Int, mid = 1 ∨ mid = 2 → Fits mid (.addRequest (utf8Enc (str "o")) ([(str "CN", [AVal.text (str "a"), AVal.text (str "b")])].map Spec.Wire.ofAttr)) none := by
    rintro mid (rfl | rfl) <;> exact fits_of _ _ _ (by decide +kernel)
  have hup : pDir.updated none (.addRequest (utf8Enc (str "o")) ([(str "CN", [AVal.text (str "a"), AVal.text (str "b")])].map Spec.Wire.ofAttr)) (some [[97], [98]]) :=
    .inr ⟨str "o", str "CN", [[97], [98]], by decide, by decide, rfl, rfl, rfl⟩
  refine ⟨c93_call w_willing DirP.sampleEnv w_usable ⟨Session.St.init, some [[97]]⟩ SessionP.ready_init (.get_ (str "o") (some [str "CN"]) []) ⟨w_read _ (.inr rfl) _ (.inr (.inl rfl)), fun op found _ h => w_one _ op found h⟩,
    c93_call w_willing DirP.sampleEnv w_usable ⟨Session.St.init, none⟩ SessionP.ready_init (.exists_ (str "o")) (w_read _ (.inl rfl) _ (.inr (.inr rfl))),
    c93_call w_willing DirP.sampleEnv w_usable ⟨Session.St.init, none⟩ SessionP.ready_init (.add (str "o") [(str "CN", [.text (str "a"), .text (str "b")])]) ⟨hadd 1 (.inl rfl), _, hup⟩, ?_⟩
  intro d hd
  refine c93_if_not_exists w_willing DirP.sampleEnv w_usable ⟨Session.St.init, d⟩ SessionP.ready_init (str "o") _ (w_read _ hd _ (.inl rfl)) (fun op found _ h => ?_)
  rcases hd with rfl | rfl
  · obtain ⟨_, _, _, _, _, _, _, _, rfl⟩ := h
    exact .inr ⟨rfl, hadd 2 (.inr rfl), _, hup⟩
  · exact .inl (w_one _ op found h)
end
end Laurelin.Props
