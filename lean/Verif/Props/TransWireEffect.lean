import Verif.Props.TransWire
/-!
# C95 what a committed transaction does to the entry
-/
set_option linter.unusedSectionVars false
namespace Laurelin.Props
open Laurelin Codec Asn1 Rfc4511 Spec OverWire
open Laurelin.Spec.OverWireS (Conforms readOp Answered Faithful Selective)
open Spec.TransWireS
open WireP (codec shown)
namespace TranP
open OverWireP

/-! ### modifications applied locally and on the server -/
section
variable {lower : Str → Str} {typeOf : TypeOf AVal} {mo : Str → Bytes → Bytes → Bool} {G : Str → AVal → Prop}

theorem local_same (mods mods' : List (Mod AVal)) (h : Pairwise2 Same mods mods') : ∀ d : AttrsDict AVal, (∀ md ∈ mods, md.op = .add → md.vals.len ≠ 0) →
    localModify lower typeOf d mods = localModify lower typeOf d mods' := by
  induction h with
  | nil => intro d _; rfl
  | @cons a b as bs h1 _ ih =>
    intro d hc
    have h1' : localModify1 lower typeOf d a = localModify1 lower typeOf d b := by
      have := hc a (by simp)
      obtain ⟨opa, aa, va⟩ := a
      obtain ⟨opb, ab, vb⟩ := b
      obtain ⟨ho, ha, hv⟩ := h1
      dsimp only at ho ha hv this
      subst ho ha
      rcases hv with rfl | ⟨rfl, rfl⟩
      · rfl
      · cases opa with
        | add => simp [Vals.len] at this
        | replace => rfl
        | delete => rfl
    simp only [localModify, ← h1']
    split
    · exact ih _ (fun x hx => hc x (by simp [hx]))
    · rfl

theorem clean_opts {s : Props.Session AVal} {o : EmptyOpts} {mods : List (Mod AVal)} (hc : Clean lower (onBytes mo) G s o mods) : Clean lower (onBytes mo) G s ⟨false, o.ignore⟩ mods :=
  ⟨hc.constructible, hc.good, hc.noIgnored, hc.present, hc.known⟩

theorem local_view (hD : Decides typeOf (onBytes mo) G) (hf : FoldCompat lower (onBytes mo) G) (o : EmptyOpts) (d : AttrsDict AVal) (e e' : Spec.Entry AVal) (hv : View lower G ⟨d, e⟩) (mods : List (Mod AVal))
    (hc : Clean lower (onBytes mo) G ⟨d, e⟩ o mods) (hs : srvModify lower (onBytes mo) e (meant mods) = .ok e') :
    View lower G ⟨(localModify lower typeOf d mods).1, e'⟩ ∧ (∀ attr, Agrees lower ⟨d, e⟩ attr → Agrees lower ⟨(localModify lower typeOf d mods).1, e'⟩ attr) ∧
    ∀ md ∈ mods, Agrees lower ⟨(localModify lower typeOf d mods).1, e'⟩ md.attr := by
  let env : ObjEnv AVal := ⟨false, [], ⟨false, o.ignore⟩, .ok (), [], false⟩
  obtain ⟨h1, h2, h3, _, h5⟩ := c10_modify_step lower hD hf (fun _ _ => .error .osError) ⟨d, e⟩ hv env mods (clean_opts hc)
  have hacc : (ldapModify env.unbound env.validators env.opts env.ctrls (answer lower (onBytes mo) e) env.dn mods (some d)).result = .ok () := by
    have := ((c08_request env.validators env.opts (answer lower (onBytes mo) e) env.dn mods (some d) hc.constructible rfl).2 (by simp [env])).2
    show (ldapModify false env.validators env.opts (.ok ()) (answer lower (onBytes mo) e) env.dn mods (some d)).result = .ok ()
    rw [this, wire_meant _ _ (clean_opts hc).noIgnored]
    split
    · rfl
    · simp only [answer, hs]
  have hok := h5 hacc
  have hent := (h3 hok).1
  dsimp only at hent
  rw [hs] at hent
  have hmods := (ldapModify_out env.unbound env.validators env.opts env.ctrls (answer lower (onBytes mo) e) env.dn mods (some d)).1
  have hobj : (Session.call lower typeOf (onBytes mo) (fun _ _ => .error .osError) ⟨d, e⟩ env (.modify mods)).1.obj = (localModify lower typeOf d mods).1 := by
    simp only [Session.call, ObjEnv.modify, objModify, hacc]
    rw [local_same _ _ hmods d hc.constructible]
  have hsess : (Session.call lower typeOf (onBytes mo) (fun _ _ => .error .osError) ⟨d, e⟩ env (.modify mods)).1 = ⟨(localModify lower typeOf d mods).1, e'⟩ := by
    rw [← hobj, Except.ok.inj hent]
  rw [hsess] at h1 h2 h3
  exact ⟨h1, h2, (h3 hok).2⟩

theorem srvModify_append_error {W : Type} [DecidableEq W] (m : Str → W → W → Bool) (a b : List (Change W)) : ∀ (e : Spec.Entry W) x, srvModify lower m e a = .error x → srvModify lower m e (a ++ b) = .error x := by
  induction a with
  | nil => intro e x h; cases h
  | cons c cs ih =>
    intro e x h
    simp only [List.cons_append, srvModify] at h ⊢
    split at h
    · exact ih _ _ h
    · exact h

theorem srvModify_then_error {W : Type} [DecidableEq W] (m : Str → W → W → Bool) (a b : List (Change W)) : ∀ (e e1 : Spec.Entry W) x, srvModify lower m e a = .ok e1 → srvModify lower m e1 b = .error x →
    srvModify lower m e (a ++ b) = .error x := by
  induction a with
  | nil => intro e e1 x h h2; cases h; exact h2
  | cons c cs ih =>
    intro e e1 x h h2
    simp only [List.cons_append, srvModify] at h ⊢
    split at h
    · exact ih _ _ _ h h2
    · cases h

theorem clearsPresent_nonempty (cs : List (Change AVal)) (h : ∀ c ∈ cs, c.op = .replace → c.vals ≠ []) : ∀ e, ClearsPresent lower (onBytes mo) e cs := by
  induction cs with
  | nil => intro e; trivial
  | cons c cs ih => intro e; exact ⟨fun ho hv => absurd hv (h c (by simp) ho), fun e' _ => ih (fun c hc => h c (by simp [hc])) e'⟩

/-- what is sent for modifications without ignored empty lists -/
theorem changes_meant (o : EmptyOpts) (mods : List (Mod AVal)) (h : o.ignore = true → ∀ md ∈ mods, md.vals ≠ .list []) : mods.filterMap (DirectoryS.changeOf o) = (meant mods).map toBytes := by
  induction mods with
  | nil => rfl
  | cons md mods ih =>
    have ih := ih (fun hi x hx => h hi x (by simp [hx]))
    have hmd := fun hi => h hi md (by simp)
    have : DirectoryS.changeOf o md = some (toBytes ⟨md.op, md.attr, valsList md.vals⟩) := by
      obtain ⟨op, a, v⟩ := md
      cases v with
      | deleteAll => cases op <;> rfl
      | list l =>
        cases l with
        | cons => cases op <;> rfl
        | nil =>
          have hi : ¬ o.ignore = true := fun hi => hmd hi rfl
          cases op with
          | add => rfl
          | replace =>
            simp only [DirectoryS.changeOf, if_neg hi]
            rfl
          | delete =>
            simp only [DirectoryS.changeOf, if_neg hi]
            rfl
    rw [List.filterMap_cons_some this, ih]
    rfl

end

/-! ### one staged call -/
section
variable {V R S : Type} (lower : Str → Str) (typeOf : TypeOf AVal) (mo : Str → Bytes → Bytes → Bool) (G : Str → AVal → Prop)

/-- the call looks at values (and fetches those that are missing) -/
def Looks : Stage → Prop
  | .addAttrs _ => True
  | .deleteAttrs _ => True
  | _ => False

/-- add_attrs, replace_attrs (not with empty lists) and delete_attrs with distinct names and acceptable values -/
def Sound (o : EmptyOpts) : Stage → Prop
  | .addAttrs new => (new.map (fun kv => lower kv.1)).Nodup ∧ ∀ kv ∈ new, (∃ ty, typeOf kv.1 = .ok ty) ∧ ∀ v ∈ kv.2, G kv.1 v
  | .replaceAttrs new => (new.map (fun kv => lower kv.1)).Nodup ∧ ∀ kv ∈ new, valsList kv.2 ≠ [] ∧ ∀ v ∈ valsList kv.2, G kv.1 v
  | .deleteAttrs del => (del.map (fun kv => lower kv.1)).Nodup ∧ ∀ kv ∈ del, (∃ ty, typeOf kv.1 = .ok ty) ∧ (∀ v ∈ valsList kv.2, G kv.1 v) ∧ (o.ignore = true → kv.2 ≠ .list [])
  | _ => False

/-- an earlier call names the attribute -/
def Touched (before : List Stage) (a : Str) : Prop := ∃ b ∈ before, ∃ a' ∈ names b, lower a' = lower a

/-- the transaction does not have to fetch attributes that earlier calls have changed -/
def Fresh (strict : Bool) (before : List Stage) (d : AttrsDict AVal) (c : Stage) : Prop :=
  strict = false → Looks c → ∀ a ∈ names c, Touched lower before a → AttrsDict.getAttr lower d a ≠ []

/-- facts about the staged list -/
structure Listed (o : EmptyOpts) (done : List Stage) (mods : List (Mod AVal)) : Prop where
  constructible : ∀ md ∈ mods, md.op = .add → md.vals.len ≠ 0
  good : ∀ md ∈ mods, ∀ v ∈ valsList md.vals, G md.attr v
  noIgnored : o.ignore = true → ∀ md ∈ mods, md.vals ≠ .list []
  replaces : ∀ md ∈ mods, md.op = .replace → valsList md.vals ≠ []
  from' : ∀ md ∈ mods, md.op = .replace ∨ ∃ c ∈ done, Looks c ∧ md.attr ∈ names c
  all : ∀ c ∈ done, ¬ Looks c → ∀ a ∈ names c, ∃ md ∈ mods, md.attr = a

/-- the staged list turns `e0` into `es`, which is what the transaction shows -/
structure Keep (o : EmptyOpts) (strict : Bool) (e0 : Spec.Entry Bytes) (done : List Stage) (t : Trans AVal) (es : Spec.Entry Bytes) : Prop where
  composed : Composed lower mo e0 done es
  staged : srvModify lower mo e0 ((meant t.modlist).map toBytes) = .ok es
  view : View lower G ⟨t.attrs, seen es⟩
  full : strict = true → ∀ a, Agrees lower ⟨t.attrs, seen es⟩ a
  untouched : ∀ x, (∀ b ∈ done, ∀ a ∈ names b, lower a ≠ x) → es x = e0 x
  listed : Listed G o done t.modlist

/-- no server accepts the staged list -/
def Doomed (o : EmptyOpts) (e0 : Spec.Entry Bytes) (t : Trans AVal) : Prop :=
  ∃ pre suf x, t.modlist = pre ++ suf ∧ (o.ignore = true → ∀ md ∈ pre, md.vals ≠ .list []) ∧ srvModify lower mo e0 ((meant pre).map toBytes) = .error x

variable {lower typeOf mo G} {entry : S → Spec.Entry Bytes} {peer : Peer S}

theorem nodup_names {A : Type} (l : List (Str × A)) (h : (l.map (fun kv => lower kv.1)).Nodup) : (l.map Prod.fst).Nodup := by
  rw [show l.map (fun p => lower p.1) = (l.map Prod.fst).map lower by rw [List.map_map]; rfl] at h
  exact List.Pairwise.of_map _ (fun a b hab hc => hab (by rw [hc])) h

theorem fetch_only (env : OverWire.Env V R) (hconf : Conforms lower mo env.obj.dn entry peer) (hsel : Selective lower env.obj.dn entry peer) (l : Link Received.Decoded S) (hr : SessionP.Ready l.st) (attrs : List Str) :
    let x := fetch codec (fun d => d.1.1) peer env l attrs
    SessionP.Ready x.1.st ∧ entry x.1.peer = entry l.peer ∧
    ∀ got, x.2 = .ok got → (got.map (fun p => lower p.1)).Nodup ∧ FetchOf lower (seen (entry l.peer)) attrs got ∧ ∀ kv ∈ got, ∃ a ∈ attrs, lower a = lower kv.1 := by
  intro x
  obtain ⟨h1, h2, h3⟩ := fetch_gen entry peer env (fun s attrs p => Faithful lower (entry s) attrs p ∧ ∀ q ∈ p, ∃ a ∈ attrs, lower a = lower q.1) hsel l hr attrs
  refine ⟨h1, h2, fun got hgot => ?_⟩
  obtain ⟨p, ⟨hp1, hp2⟩, rfl⟩ := h3 got hgot
  obtain ⟨k1, k2⟩ := faithful_seen lower _ _ _ hp1
  refine ⟨k1, k2, fun kv hkv => ?_⟩
  obtain ⟨q, hq, rfl⟩ := List.mem_map.1 hkv
  exact hp2 q hq

/-- what is missing is fetched; it is as the staged changes leave it -/
theorem prepare_keep (env : OverWire.Env V R) (hconf : Conforms lower mo env.obj.dn entry peer) (hsel : Selective lower env.obj.dn entry peer) (l : Link Received.Decoded S) (hr : SessionP.Ready l.st)
    (done : List Stage) (d : AttrsDict AVal) (es : Spec.Entry Bytes) (hv : View lower G ⟨d, seen es⟩) (hfull : env.obj.strict = true → ∀ a, Agrees lower ⟨d, seen es⟩ a)
    (hun : ∀ x, (∀ b ∈ done, ∀ a ∈ names b, lower a ≠ x) → es x = entry l.peer x) (attrs : List Str)
    (hfresh : env.obj.strict = false → ∀ a ∈ attrs, Touched lower done a → AttrsDict.getAttr lower d a ≠ []) :
    ∀ d1, (OverWire.prepare codec (fun d => d.1.1) peer env lower l d attrs).2 = .ok d1 →
    View lower G ⟨d1, seen es⟩ ∧ (∀ a ∈ attrs, Agrees lower ⟨d1, seen es⟩ a) ∧ ∀ a, Agrees lower ⟨d, seen es⟩ a → Agrees lower ⟨d1, seen es⟩ a := by
  classical
  intro d1 hd
  cases hst : env.obj.strict with
  | true =>
    simp only [OverWire.prepare, hst, if_true, Except.ok.injEq] at hd
    subst hd
    exact ⟨hv, fun a _ => hfull hst a, fun a h => h⟩
  | false =>
    simp only [OverWire.prepare, hst, Bool.false_eq_true, if_false, OverWire.refreshMissing] at hd
    by_cases hlen : (attrs.filter (fun a => !AttrsDict.has lower d a)).length > 0
    · rw [if_pos hlen] at hd
      obtain ⟨_, _, h3⟩ := fetch_only env hconf hsel l hr (attrs.filter (fun a => !AttrsDict.has lower d a))
      simp only [OverWire.refresh] at hd
      revert hd h3
      rcases fetch codec (fun d => d.1.1) peer env l (attrs.filter (fun a => !AttrsDict.has lower d a)) with ⟨l', e | got⟩
      · intro hd; cases hd
      · intro hd h3
        obtain ⟨k1, k2, k3⟩ := h3 got rfl
        dsimp only at hd
        rw [updateCI_entry d got k1] at hd
        have hd := Except.ok.inj hd
        subst hd
        have hsame : ∀ a ∈ attrs.filter (fun a => !AttrsDict.has lower d a), es (lower a) = entry l.peer (lower a) := by
          intro a ha
          obtain ⟨ha1, ha2⟩ := List.mem_filter.1 ha
          refine hun _ (fun b hb a' ha' he => ?_)
          have := hfresh hst a ha1 ⟨b, hb, a', ha', he⟩
          rw [← AttrsDict.has_iff] at this
          rw [this] at ha2
          cases ha2
        have hg : FetchOf lower (seen es) (attrs.filter (fun a => !AttrsDict.has lower d a)) got := by
          refine ⟨fun kv hkv => ?_, fun a ha hne => k2.complete a ha (fun h => hne ?_)⟩
          · obtain ⟨a, ha, hal⟩ := k3 kv hkv
            rw [k2.sound kv hkv, ← hal]
            simp only [seen, hsame a ha]
          · simp only [seen, hsame a ha] at h ⊢
            exact h
        let read : Spec.Entry AVal → List Str → Except Err (PDict Str (List AVal)) := fun e as =>
          if e = seen es ∧ as = attrs.filter (fun a => !AttrsDict.has lower d a) then .ok got else .error .osError
        have hread : ∀ e as g, read e as = .ok g → FetchOf lower e as g := by
          intro e as g h
          simp only [read] at h
          split at h
          · rename_i hc
            cases h
            rw [hc.1, hc.2]
            exact hg
          · cases h
        have := refreshMissing_step lower ⟨d, seen es⟩ hv attrs read hread (CIDict.update lower d got) (by
          simp only [Laurelin.refreshMissing, if_pos hlen, Laurelin.refresh, read, and_self, if_true])
        exact ⟨this.1, this.2.2, this.2.1⟩
    · rw [if_neg hlen] at hd
      cases hd
      have := refreshMissing_step lower ⟨d, seen es⟩ hv attrs (fun _ _ => .error .osError) nofun d (by
        simp only [Laurelin.refreshMissing, if_neg hlen])
      exact ⟨this.1, this.2.2, this.2.1⟩

/-- staging clean modifications -/
theorem mods_keep (hD : Decides typeOf (onBytes mo) G) (hf : FoldCompat lower (onBytes mo) G) (hG : ∀ a v, G a v → Spec.Wire.Shows v.bytes v) (o : EmptyOpts) (strict : Bool) (e0 es : Spec.Entry Bytes)
    (done : List Stage) (c : Stage) (par : Option Nat) (l mods : List (Mod AVal)) (d : AttrsDict AVal) (hcomp : Composed lower mo e0 done es) (hst : srvModify lower mo e0 ((meant l).map toBytes) = .ok es)
    (hv : View lower G ⟨d, seen es⟩) (hfull : strict = true → ∀ a, Agrees lower ⟨d, seen es⟩ a) (hun : ∀ x, (∀ b ∈ done, ∀ a ∈ names b, lower a ≠ x) → es x = e0 x) (hl : Listed G o done l)
    (hc : Clean lower (onBytes mo) G ⟨d, seen es⟩ o mods) (hrep : ∀ md ∈ mods, md.op = .replace → valsList md.vals ≠ []) (hnames : ∀ md ∈ mods, md.attr ∈ names c)
    (hfrom : ∀ md ∈ mods, md.op = .replace ∨ Looks c) (hall : ¬ Looks c → ∀ a ∈ names c, ∃ md ∈ mods, md.attr = a)
    (heff : ∀ es', srvModify lower mo es ((meant mods).map toBytes) = .ok es' → Effect lower mo es c es') :
    (∃ es', Keep lower mo G o strict e0 (done ++ [c]) ⟨par, l ++ mods, (localModify lower typeOf d mods).1⟩ es') ∨ Doomed lower mo o e0 ⟨par, l ++ mods, (localModify lower typeOf d mods).1⟩ := by
  have happ : (meant (l ++ mods)).map toBytes = (meant l).map toBytes ++ (meant mods).map toBytes := by simp [meant]
  have hcan : ∀ c ∈ meant mods, ∀ v ∈ c.vals, Canon v := by
    intro c h v hv
    obtain ⟨md, hmd, rfl⟩ := List.mem_map.1 h
    exact shown_bytes v (hG _ v (hc.good md hmd v hv))
  have hseen := srvModify_seen mo lower (meant mods) es hcan
  cases hm : srvModify lower mo es ((meant mods).map toBytes) with
  | error x =>
    right
    refine ⟨l ++ mods, [], x, by simp, fun hi md hmd => ?_, ?_⟩
    · rcases List.mem_append.1 hmd with h | h
      · exact hl.noIgnored hi md h
      · exact hc.noIgnored hi md h
    · rw [happ]
      exact srvModify_then_error mo _ _ _ _ _ hst hm
  | ok es' =>
    left
    rw [hm] at hseen
    obtain ⟨k1, k2, k3⟩ := local_view (typeOf := typeOf) hD hf o d (seen es) (seen es') hv mods hc hseen
    refine ⟨es', .snoc hcomp (heff es' hm), ?_, k1, fun hs a => k2 a (hfull hs a), fun x hx => ?_, ?_⟩
    · dsimp only
      rw [happ]
      exact srvModify_append lower _ _ _ _ _ hst hm
    · rw [← hun x (fun b hb => hx b (by simp [hb]))]
      have hgen : ∀ (cs : List (Change Bytes)) (e e' : Spec.Entry Bytes), srvModify lower mo e cs = .ok e' → (∀ c ∈ cs, lower c.attr ≠ x) → e' x = e x := by
        intro cs
        induction cs with
        | nil => intro e e' h _; cases h; rfl
        | cons c cs ih =>
          intro e e' h hne
          simp only [srvModify] at h
          cases h1 : srvChange lower mo e c with
          | error y => rw [h1] at h; cases h
          | ok e1 =>
            rw [h1] at h
            rw [ih e1 e' h (fun c hc => hne c (by simp [hc])), srvChange_one e e1 c h1]
            simp only [Entry.put, if_neg (fun h : x = lower c.attr => hne c (by simp) h.symm)]
      refine hgen _ _ _ hm (fun ch hch => ?_)
      obtain ⟨y, hy, rfl⟩ := List.mem_map.1 hch
      obtain ⟨md, hmd, rfl⟩ := List.mem_map.1 hy
      exact hx c (by simp) md.attr (hnames md hmd)
    · refine ⟨?_, ?_, ?_, ?_, ?_, ?_⟩
      · intro md hmd
        rcases List.mem_append.1 hmd with h | h
        · exact hl.constructible md h
        · exact hc.constructible md h
      · intro md hmd
        rcases List.mem_append.1 hmd with h | h
        · exact hl.good md h
        · exact hc.good md h
      · intro hi md hmd
        rcases List.mem_append.1 hmd with h | h
        · exact hl.noIgnored hi md h
        · exact hc.noIgnored hi md h
      · intro md hmd
        rcases List.mem_append.1 hmd with h | h
        · exact hl.replaces md h
        · exact hrep md h
      · intro md hmd
        rcases List.mem_append.1 hmd with h | h
        · exact (hl.from' md h).imp id (fun ⟨b, hb, g⟩ => ⟨b, by simp [hb], g⟩)
        · exact (hfrom md h).imp id (fun g => ⟨c, by simp, g, hnames md h⟩)
      · intro b hb hnl a ha
        rcases List.mem_append.1 hb with h | h
        · obtain ⟨md, hmd, he⟩ := hl.all b h hnl a ha
          exact ⟨md, by simp [hmd], he⟩
        · rw [List.mem_singleton.1 h] at hnl ha
          obtain ⟨md, hmd, he⟩ := hall hnl a ha
          exact ⟨md, by simp [hmd], he⟩

theorem trans_ok (env : ObjEnv AVal) (t : Trans AVal) (mods : List (Mod AVal)) (h : (transModify lower typeOf env t mods).2 = .ok ()) :
    (transModify lower typeOf env t mods).1 = ⟨t.parent, t.modlist ++ mods, (localModify lower typeOf t.attrs mods).1⟩ := by
  simp only [transModify] at h ⊢
  cases hv : runValidation env.validators (env.dn, mods, some t.attrs) with
  | error e => rw [hv] at h; cases h
  | ok u => rfl

theorem stage_keep (hD : Decides typeOf (onBytes mo) G) (hf : FoldCompat lower (onBytes mo) G) (hG : ∀ a v, G a v → Spec.Wire.Shows v.bytes v) (env : OverWire.Env V R)
    (hconf : Conforms lower mo env.obj.dn entry peer) (hsel : Selective lower env.obj.dn entry peer) (l : Link Received.Decoded S) (hr : SessionP.Ready l.st) (done : List Stage) (t : Trans AVal) (c : Stage)
    (es : Spec.Entry Bytes) (hk : Keep lower mo G env.obj.opts env.obj.strict (entry l.peer) done t es) (hs : Sound lower typeOf G env.obj.opts c) (hfr : Fresh lower env.obj.strict done t.attrs c)
    (hok : (stageOn codec (fun d => d.1.1) peer lower typeOf env l t c).2.2 = .ok ()) :
    (∃ es', Keep lower mo G env.obj.opts env.obj.strict (entry l.peer) (done ++ [c]) (stageOn codec (fun d => d.1.1) peer lower typeOf env l t c).2.1 es') ∨
      Doomed lower mo env.obj.opts (entry l.peer) (stageOn codec (fun d => d.1.1) peer lower typeOf env l t c).2.1 := by
  obtain ⟨par, ml, d⟩ := t
  cases c with
  | modify mods => exact absurd hs id
  | refresh attrs => exact absurd hs id
  | replaceAttrs new =>
    obtain ⟨h1, h2⟩ := hs
    have hml : modlist .replace (new.map (fun kv => (kv.1, RawVals.vals kv.2))) = .ok (new.map (fun kv => ⟨.replace, kv.1, kv.2⟩)) := by
      rw [(c07_modlist _ _).2 (by simp)]
      simp [normalise]
    simp only [stageOn, hml] at hok ⊢
    rw [trans_ok _ _ _ hok]
    have hmem : ∀ md ∈ new.map (fun kv => (⟨.replace, kv.1, kv.2⟩ : Mod AVal)), ∃ kv ∈ new, md = ⟨.replace, kv.1, kv.2⟩ := by
      intro md hmd
      obtain ⟨kv, hkv, rfl⟩ := List.mem_map.1 hmd
      exact ⟨kv, hkv, rfl⟩
    have hcl : Clean lower (onBytes mo) G ⟨d, seen es⟩ env.obj.opts (new.map (fun kv => (⟨.replace, kv.1, kv.2⟩ : Mod AVal))) := by
      refine ⟨?_, ?_, ?_, ?_, ?_⟩
      · intro md hmd ho
        obtain ⟨kv, hkv, rfl⟩ := hmem md hmd
        cases ho
      · intro md hmd
        obtain ⟨kv, hkv, rfl⟩ := hmem md hmd
        exact (h2 kv hkv).2
      · intro _ md hmd he
        obtain ⟨kv, hkv, rfl⟩ := hmem md hmd
        refine (h2 kv hkv).1 ?_
        dsimp only at he
        rw [he]; rfl
      · refine clearsPresent_nonempty _ (fun ch hch _ => ?_) _
        obtain ⟨md, hmd, rfl⟩ := List.mem_map.1 hch
        obtain ⟨kv, hkv, rfl⟩ := hmem md hmd
        exact (h2 kv hkv).1
      · intro md hmd
        obtain ⟨kv, hkv, rfl⟩ := hmem md hmd
        exact .inr ⟨rfl, (h2 kv hkv).1⟩
    refine mods_keep hD hf hG _ _ _ es done _ par ml _ d hk.composed hk.staged hk.view hk.full hk.untouched hk.listed hcl ?_ ?_ ?_ ?_ ?_
    · intro md hmd _
      obtain ⟨kv, hkv, rfl⟩ := hmem md hmd
      exact (h2 kv hkv).1
    · intro md hmd
      obtain ⟨kv, hkv, rfl⟩ := hmem md hmd
      exact List.mem_map_of_mem hkv
    · intro md hmd
      obtain ⟨kv, hkv, rfl⟩ := hmem md hmd
      exact .inl rfl
    · intro _ a ha
      obtain ⟨kv, hkv, rfl⟩ := List.mem_map.1 ha
      exact ⟨_, List.mem_map_of_mem hkv, rfl⟩
    · intro es' hes
      have hfm : new.map (fun kv => (⟨.replace, kv.1, kv.2⟩ : Mod AVal)) = new.filterMap (fun kv => some ⟨.replace, kv.1, kv.2⟩) := by
        rw [List.filterMap_eq_map']
      rw [hfm] at hes
      show OverWireS.Becomes lower es es' new (fun _ vs _ => given vs)
      refine becomes new _ (fun kv md hmd => by cases hmd; rfl) h1 _ _ hes _ (fun kv hkv md hmd => ?_) (fun kv hkv hmd => by cases hmd)
      cases hmd
      show (valsList kv.2).map AVal.bytes = given kv.2
      cases kv.2 <;> rfl
  | addAttrs new =>
    obtain ⟨h1, h2⟩ := hs
    have hp := prepare_keep env hconf hsel l hr done d es hk.view hk.full hk.untouched (new.map Prod.fst) (fun hst a ha => hfr hst trivial a ha)
    simp only [stageOn] at hok ⊢
    revert hp hok
    rcases OverWire.prepare codec (fun d => d.1.1) peer env lower l d (new.map Prod.fst) with ⟨l1, e | d1⟩
    · intro hok; cases hok
    · intro hok hp
      obtain ⟨p1, p2, p3⟩ := hp d1 rfl
      have hmod := c05_add_modlist lower typeOf (onBytes mo) G hD d1 (view_good lower p1) new (nodup_names new h1) (fun a ha => by
        obtain ⟨kv, hkv, rfl⟩ := List.mem_map.1 ha
        exact (h2 kv hkv).1) (fun kv hkv => (h2 kv hkv).2)
      dsimp only at hok ⊢
      cases hmods : addModlist lower typeOf d1 (new.map (fun kv => (kv.1, Vals.list kv.2))) with
      | error e => rw [hmods] at hok; cases hok
      | ok mods =>
        rw [hmods] at hok
        have hm2 : mods = addWanted lower (onBytes mo) d1 new := by
          by_cases hb : ∃ kv ∈ new, kv.2 = [] ∧ AttrsDict.getAttr lower d1 kv.1 = []
          · rw [hmod.2 hb] at hmods; simp at hmods
          · rw [hmod.1 (fun kv hkv he hx => hb ⟨kv, hkv, he, hx⟩)] at hmods
            simpa using hmods.symm
        subst hm2
        dsimp only at hok ⊢
        rw [trans_ok _ _ _ hok]
        have hmem : ∀ md ∈ addWanted lower (onBytes mo) d1 new, md.op = .add ∧ md.attr ∈ new.map Prod.fst := by
          intro md hmd
          simp only [addWanted, List.mem_filterMap] at hmd
          obtain ⟨kv, hkv, he⟩ := hmd
          split at he
          · cases he
          · cases he
            exact ⟨rfl, List.mem_map_of_mem hkv⟩
        have hcl := clean_addWanted lower (m := onBytes mo) (G := G) ⟨d1, seen es⟩ env.obj.opts new (fun kv hkv => (h2 kv hkv).2) (fun kv hkv => p2 _ (List.mem_map_of_mem hkv))
        refine mods_keep hD hf hG _ _ _ es done _ par ml _ d1 hk.composed hk.staged p1 (fun hst a => p3 a (hk.full hst a)) hk.untouched hk.listed hcl ?_ ?_ ?_ ?_ ?_
        · intro md hmd ho
          rw [(hmem md hmd).1] at ho
          cases ho
        · exact fun md hmd => (hmem md hmd).2
        · exact fun _ _ => .inr trivial
        · exact fun h => absurd trivial h
        · exact fun es' hes => add_becomes _ _ _ new h1 (fun kv hkv => p2 _ (List.mem_map_of_mem hkv)) hes
  | deleteAttrs del =>
    obtain ⟨h1, h2⟩ := hs
    have hp := prepare_keep env hconf hsel l hr done d es hk.view hk.full hk.untouched (del.map Prod.fst) (fun hst a ha => hfr hst trivial a ha)
    simp only [stageOn] at hok ⊢
    revert hp hok
    rcases OverWire.prepare codec (fun d => d.1.1) peer env lower l d (del.map Prod.fst) with ⟨l1, e | d1⟩
    · intro hok; cases hok
    · intro hok hp
      obtain ⟨p1, p2, p3⟩ := hp d1 rfl
      have hmod := c06_delete_modlist lower typeOf (onBytes mo) G hD d1 (view_good lower p1) del (nodup_names del h1) (fun a ha => by
        obtain ⟨kv, hkv, rfl⟩ := List.mem_map.1 ha
        exact (h2 kv hkv).1) (fun kv hkv l hl v hv => (h2 kv hkv).2.1 v (by rw [hl]; exact hv))
      dsimp only at hok ⊢
      rw [hmod] at hok ⊢
      dsimp only at hok ⊢
      rw [trans_ok _ _ _ hok]
      have hmem : ∀ md ∈ delWanted lower (onBytes mo) d1 del, md.op = .delete ∧ md.attr ∈ del.map Prod.fst := by
        intro md hmd
        simp only [delWanted, List.mem_filterMap] at hmd
        obtain ⟨⟨a, vs⟩, hkv, he⟩ := hmd
        dsimp only at he
        split at he
        · cases he
        · split at he
          · cases he; exact ⟨rfl, List.mem_map_of_mem hkv⟩
          · cases he; exact ⟨rfl, List.mem_map_of_mem hkv⟩
          · split at he
            · cases he
            · cases he; exact ⟨rfl, List.mem_map_of_mem hkv⟩
      have hcl := clean_delWanted lower (m := onBytes mo) (G := G) ⟨d1, seen es⟩ env.obj.opts del (fun kv hkv => (h2 kv hkv).2.1) (fun kv hkv => p2 _ (List.mem_map_of_mem hkv))
        (fun hi kv hkv => (h2 kv hkv).2.2 hi)
      refine mods_keep hD hf hG _ _ _ es done _ par ml _ d1 hk.composed hk.staged p1 (fun hst a => p3 a (hk.full hst a)) hk.untouched hk.listed hcl ?_ ?_ ?_ ?_ ?_
      · intro md hmd ho
        rw [(hmem md hmd).1] at ho
        cases ho
      · exact fun md hmd => (hmem md hmd).2
      · exact fun _ _ => .inr trivial
      · exact fun h => absurd trivial h
      · intro es' hes
        have hb := delete_becomes _ _ _ del h1 (fun kv hkv => p2 _ (List.mem_map_of_mem hkv)) hes
        have hg : ∀ (a : Str) (vs : Vals AVal) (cur : List Bytes), deleted (mo a) vs cur = if given vs = [] then [] else OverWireS.without (mo a) cur (given vs) := by
          intro a vs cur
          cases vs with
          | deleteAll => rfl
          | list l =>
            cases l with
            | nil => rfl
            | cons => rfl
        simp only [hg] at hb
        exact hb

/-! ### the calls one after the other, and commit -/

theorem prepare_quiet (env : OverWire.Env V R) (hconf : Conforms lower mo env.obj.dn entry peer) (l : Link Received.Decoded S) (hr : SessionP.Ready l.st) (d : AttrsDict AVal) (attrs : List Str) :
    let x := OverWire.prepare codec (fun d => d.1.1) peer env lower l d attrs
    SessionP.Ready x.1.st ∧ entry x.1.peer = entry l.peer := by
  intro x
  simp only [x, OverWire.prepare, OverWire.refreshMissing]
  split
  · exact ⟨hr, rfl⟩
  · split
    · obtain ⟨h1, h2, _⟩ := fetch_step lower mo entry peer env env.obj.dn hconf rfl l hr (attrs.filter (fun a => !AttrsDict.has lower d a))
      revert h1 h2
      simp only [OverWire.refresh]
      rcases fetch codec (fun d => d.1.1) peer env l (attrs.filter (fun a => !AttrsDict.has lower d a)) with ⟨l', e | got⟩ <;> exact fun h1 h2 => ⟨h1, h2⟩
    · exact ⟨hr, rfl⟩

theorem trans_prefix (env : ObjEnv AVal) (t : Trans AVal) (mods : List (Mod AVal)) :
    (transModify lower typeOf env t mods).1.parent = t.parent ∧ ∃ more, (transModify lower typeOf env t mods).1.modlist = t.modlist ++ more := by
  simp only [transModify]
  cases runValidation env.validators (env.dn, mods, some t.attrs) with
  | error e => exact ⟨rfl, [], by simp⟩
  | ok u => exact ⟨rfl, mods, rfl⟩

theorem stage_quiet (env : OverWire.Env V R) (hconf : Conforms lower mo env.obj.dn entry peer) (l : Link Received.Decoded S) (hr : SessionP.Ready l.st) (t : Trans AVal) (c : Stage) :
    let x := stageOn codec (fun d => d.1.1) peer lower typeOf env l t c
    SessionP.Ready x.1.st ∧ entry x.1.peer = entry l.peer ∧ x.2.1.parent = t.parent ∧ ∃ more, x.2.1.modlist = t.modlist ++ more := by
  intro x
  have same : ∃ more, t.modlist = t.modlist ++ more := ⟨[], by simp⟩
  cases c with
  | modify mods => exact ⟨hr, rfl, trans_prefix env.obj t mods⟩
  | addAttrs new =>
    have h := prepare_quiet env hconf l hr t.attrs (new.map Prod.fst)
    simp only [x, stageOn]
    revert h
    rcases OverWire.prepare codec (fun d => d.1.1) peer env lower l t.attrs (new.map Prod.fst) with ⟨l1, e | d1⟩
    · exact fun h => ⟨h.1, h.2, rfl, same⟩
    · dsimp only
      cases addModlist lower typeOf d1 (new.map (fun kv => (kv.1, Vals.list kv.2))) with
      | error e => exact fun h => ⟨h.1, h.2, rfl, same⟩
      | ok mods => exact fun h => ⟨h.1, h.2, trans_prefix env.obj { t with attrs := d1 } mods⟩
  | replaceAttrs new =>
    simp only [x, stageOn]
    cases modlist .replace (new.map (fun kv => (kv.1, RawVals.vals kv.2))) with
    | error e => exact ⟨hr, rfl, rfl, same⟩
    | ok mods => exact ⟨hr, rfl, trans_prefix env.obj t mods⟩
  | deleteAttrs del =>
    have h := prepare_quiet env hconf l hr t.attrs (del.map Prod.fst)
    simp only [x, stageOn]
    revert h
    rcases OverWire.prepare codec (fun d => d.1.1) peer env lower l t.attrs (del.map Prod.fst) with ⟨l1, e | d1⟩
    · exact fun h => ⟨h.1, h.2, rfl, same⟩
    · dsimp only
      cases deleteModlist lower typeOf d1 del with
      | error e => exact fun h => ⟨h.1, h.2, rfl, same⟩
      | ok mods => exact fun h => ⟨h.1, h.2, trans_prefix env.obj { t with attrs := d1 } mods⟩
  | refresh attrs =>
    obtain ⟨h1, h2, _⟩ := fetch_step lower mo entry peer env env.obj.dn hconf rfl l hr attrs
    simp only [x, stageOn, OverWire.refresh]
    revert h1 h2
    rcases fetch codec (fun d => d.1.1) peer env l attrs with ⟨l', e | got⟩
    · exact fun h1 h2 => ⟨h1, h2, rfl, same⟩
    · dsimp only
      intro h1 h2
      cases CIDict.updateCI lower t.attrs (CIDict.update lower CIDict.empty got) with
      | error e => exact ⟨h1, h2, rfl, same⟩
      | ok d' => exact ⟨h1, h2, rfl, same⟩

/-- what commit does on a conforming server: all the changes or none, and the object is changed only when they have been made -/
theorem commit_step (env : OverWire.Env V R) (hconf : Conforms lower mo env.obj.dn entry peer) (l : Link Received.Decoded S) (hr : SessionP.Ready l.st) (orig : AttrsDict AVal) (mods : List (Mod AVal)) :
    let a := modifyObj codec (fun d => d.1.1) peer env lower typeOf l orig mods
    let changes := mods.filterMap (DirectoryS.changeOf env.obj.opts)
    (a.result = .ok () → srvModify lower mo (entry l.peer) changes = .ok (entry a.link.peer)) ∧
    ((entry a.link.peer = entry l.peer ∧ a.obj = orig) ∨ srvModify lower mo (entry l.peer) changes = .ok (entry a.link.peer)) := by
  intro a changes
  let srv := fun rq => (sendModify codec (fun d => d.1.1) peer env l rq).2
  let m := env.obj.modify lower typeOf srv orig mods
  have ha : a.result = m.2.result ∧ a.obj = m.1 ∧ a.link = m.2.sent.foldl (fun l rq => (sendModify codec (fun d => d.1.1) peer env l rq).1) l := ⟨rfl, rfl, rfl⟩
  obtain ⟨a1, a2, a3⟩ := ha
  obtain ⟨_, h2⟩ := ldapModify_out env.obj.unbound env.obj.validators env.obj.opts env.obj.ctrls srv env.obj.dn mods (some orig)
  have hm : m = objModify lower typeOf env.obj.unbound env.obj.validators env.obj.opts env.obj.ctrls srv env.obj.dn orig mods := rfl
  have hparts : m.2.sent = (ldapModify env.obj.unbound env.obj.validators env.obj.opts env.obj.ctrls srv env.obj.dn mods (some orig)).sent ∧
      (∀ e, (ldapModify env.obj.unbound env.obj.validators env.obj.opts env.obj.ctrls srv env.obj.dn mods (some orig)).result = .error e → m.1 = orig ∧ m.2.result = .error e) := by
    rw [hm]
    simp only [objModify]
    cases hres : (ldapModify env.obj.unbound env.obj.validators env.obj.opts env.obj.ctrls srv env.obj.dn mods (some orig)).result with
    | error e => exact ⟨rfl, fun e' he => ⟨rfl, by rw [hres]; exact he⟩⟩
    | ok u => exact ⟨rfl, nofun⟩
  obtain ⟨g1, g2⟩ := hparts
  rw [a3, g1, a1, a2]
  have refused : ∀ e, (ldapModify env.obj.unbound env.obj.validators env.obj.opts env.obj.ctrls srv env.obj.dn mods (some orig)).result = .error e → ∀ e', entry l.peer = e' →
      (m.2.result = .ok () → srvModify lower mo (entry l.peer) changes = .ok e') ∧ ((e' = entry l.peer ∧ m.1 = orig) ∨ srvModify lower mo (entry l.peer) changes = .ok e') := by
    intro e he e' hee
    obtain ⟨q1, q2⟩ := g2 e he
    exact ⟨fun h => (by rw [q2] at h; cases h), .inl ⟨hee.symm, q1⟩⟩
  have made : ∀ e', srvModify lower mo (entry l.peer) changes = .ok e' →
      (m.2.result = .ok () → srvModify lower mo (entry l.peer) changes = .ok e') ∧ ((e' = entry l.peer ∧ m.1 = orig) ∨ srvModify lower mo (entry l.peer) changes = .ok e') :=
    fun e' h => ⟨fun _ => h, .inr h⟩
  rcases h2 with ⟨k1, k2⟩ | ⟨cs, k1, k2, k3⟩
  · rw [k1]
    cases hres : (ldapModify env.obj.unbound env.obj.validators env.obj.opts env.obj.ctrls srv env.obj.dn mods (some orig)).result with
    | error e => exact refused e hres _ rfl
    | ok u =>
      refine made _ ?_
      show srvModify lower mo (entry l.peer) (mods.filterMap (DirectoryS.changeOf env.obj.opts)) = _
      rw [k2 hres]
      rfl
  · rw [k1]
    obtain ⟨_, ⟨_, q3⟩ | ⟨⟨e, q2⟩, q3⟩⟩ := sendModify_step lower mo entry peer env env.obj.dn hconf l hr ⟨env.obj.dn, cs⟩ rfl
    · refine made _ ?_
      dsimp only at q3
      rw [k2] at q3
      exact q3
    · exact refused e (k3.trans q2) _ q3.symm

variable (peer lower typeOf G)

/-- a connection for the same object with the same options -/
def Like (env0 env : OverWire.Env V R) : Prop := env.obj.dn = env0.obj.dn ∧ env.obj.opts = env0.obj.opts ∧ env.obj.strict = env0.obj.strict

/-- the calls are made on transaction `i` one after the other: sound and fresh when they are made, and they return -/
def StagedRun (env0 : OverWire.Env V R) (i : Nat) : List Stage → TLink Received.Decoded S → List (OverWire.Env V R × Stage) → Prop
  | _, _, [] => True
  | done, s, (env, c) :: cs => Like env0 env ∧ Sound lower typeOf G env.obj.opts c ∧ (∀ t, s.trans[i]? = some t → Fresh lower env.obj.strict done t.attrs c) ∧
      (s.step codec (fun d => d.1.1) peer lower typeOf (.stage i env c)).2 = .ok () ∧ StagedRun env0 i (done ++ [c]) (s.step codec (fun d => d.1.1) peer lower typeOf (.stage i env c)).1 cs

variable {peer lower typeOf G}

theorem run_keep (hD : Decides typeOf (onBytes mo) G) (hf : FoldCompat lower (onBytes mo) G) (hG : ∀ a v, G a v → Spec.Wire.Shows v.bytes v) (env0 : OverWire.Env V R)
    (hconf : Conforms lower mo env0.obj.dn entry peer) (hsel : Selective lower env0.obj.dn entry peer) (i : Nat) (e0 : Spec.Entry Bytes) (orig : AttrsDict AVal) (calls : List (OverWire.Env V R × Stage)) :
    ∀ (done : List Stage) (s : TLink Received.Decoded S) (t : Trans AVal), SessionP.Ready s.link.st → entry s.link.peer = e0 → s.orig = orig → s.trans[i]? = some t → t.parent = none →
    ((∃ es, Keep lower mo G env0.obj.opts env0.obj.strict e0 done t es) ∨ Doomed lower mo env0.obj.opts e0 t) → StagedRun lower typeOf G peer env0 i done s calls →
    let f := s.run codec (fun d => d.1.1) peer lower typeOf (calls.map (fun c => .stage i c.1 c.2))
    SessionP.Ready f.link.st ∧ entry f.link.peer = e0 ∧ f.orig = orig ∧ ∃ t', f.trans[i]? = some t' ∧ t'.parent = none ∧
      ((∃ es, Keep lower mo G env0.obj.opts env0.obj.strict e0 (done ++ calls.map Prod.snd) t' es) ∨ Doomed lower mo env0.obj.opts e0 t') := by
  induction calls with
  | nil =>
    intro done s t h1 h2 h3 h4 h5 h6 _
    exact ⟨h1, h2, h3, t, h4, h5, by simpa using h6⟩
  | cons x cs ih =>
    obtain ⟨env, c⟩ := x
    intro done s t h1 h2 h3 h4 h5 h6 ⟨⟨hdn, hopts, hstr⟩, hs, hfr, hok, hrest⟩
    have hconf' : Conforms lower mo env.obj.dn entry peer := by rw [hdn]; exact hconf
    have hsel' : Selective lower env.obj.dn entry peer := by rw [hdn]; exact hsel
    obtain ⟨q1, q2, q3, more, q4⟩ := stage_quiet (typeOf := typeOf) env hconf' s.link h1 t c
    have hstep : s.step codec (fun d => d.1.1) peer lower typeOf (.stage i env c) =
        ({ s with link := (stageOn codec (fun d => d.1.1) peer lower typeOf env s.link t c).1, trans := s.trans.set i (stageOn codec (fun d => d.1.1) peer lower typeOf env s.link t c).2.1 },
          (stageOn codec (fun d => d.1.1) peer lower typeOf env s.link t c).2.2) := by
      simp only [TLink.step, h4]
    have hi : i < s.trans.length := by
      rcases Nat.lt_or_ge i s.trans.length with h | h
      · exact h
      · rw [List.getElem?_eq_none h] at h4; cases h4
    rw [hstep] at hok hrest
    have := ih (done ++ [c]) ({ s with link := (stageOn codec (fun d => d.1.1) peer lower typeOf env s.link t c).1, trans := s.trans.set i (stageOn codec (fun d => d.1.1) peer lower typeOf env s.link t c).2.1 }) _ q1 (q2.trans h2) h3 (List.getElem?_set_self hi) (q3.trans h5) ?_ hrest
    · simp only [List.map_cons, List.append_assoc, List.cons_append, List.nil_append, TLink.run, hstep] at this ⊢
      exact this
    · rcases h6 with ⟨es, hk⟩ | ⟨pre, suf, x, d1, d2, d3⟩
      · have := stage_keep hD hf hG env hconf' hsel' s.link h1 done t c es (by rw [h2, hopts, hstr]; exact hk) hs (hfr t h4) hok
        rw [h2, hopts, hstr] at this
        exact this
      · exact .inr ⟨pre, suf ++ more, x, by rw [q4, d1, List.append_assoc], d2, d3⟩

end
end TranP

open TranP OverWireP

/-- **C95 (the effect).** A transaction is begun on an object that shows what the server has (for a strict connection: all of it), add_attrs, replace_attrs and delete_attrs calls are made on it that return, and it is
committed. The server conforms and sends no attributes but those asked for. The calls name distinct attributes and acceptable values, and none has to fetch an attribute that an earlier call of the transaction has changed.
Until commit the server's entry and the object are as they were. If commit returns, the entry has become what the calls ask for, one after the other, and every attribute that the transaction shows is shown as the server has it. If commit raises,
the entry is as it was or has become what the calls ask for. If moreover the object itself had, when the transaction was begun, the attributes named in add_attrs and delete_attrs calls, then it shows all attributes
named exactly after commit has returned, and when commit raises neither the object nor the entry has changed. -/
theorem c95_effect {V R S : Type} {lower : Str → Str} {typeOf : TypeOf AVal} {mo : Str → Bytes → Bytes → Bool} {G : Str → AVal → Prop} {entry : S → Spec.Entry Bytes} {peer : Peer S}
    (hD : Decides typeOf (onBytes mo) G) (hf : FoldCompat lower (onBytes mo) G) (hG : ∀ a v, G a v → Spec.Wire.Shows v.bytes v) (env : OverWire.Env V R)
    (hconf : Conforms lower mo env.obj.dn entry peer) (hsel : Selective lower env.obj.dn entry peer) (s : TLink Received.Decoded S) (hr : SessionP.Ready s.link.st)
    (hv : View lower G ⟨s.orig, seen (entry s.link.peer)⟩) (hns : NoStale lower s.orig) (hfull : env.obj.strict = true → ∀ a, ShowsExactly lower (entry s.link.peer) s.orig a)
    (calls : List (OverWire.Env V R × Stage)) :
    let i := s.trans.length
    let s1 := (s.step codec (fun d => d.1.1) peer lower typeOf (.begin none : TCall V R)).1
    StagedRun lower typeOf G peer env i [] s1 calls →
    let s2 := s1.run codec (fun d => d.1.1) peer lower typeOf (calls.map (fun c => .stage i c.1 c.2))
    let r := s2.step codec (fun d => d.1.1) peer lower typeOf (.commit i env)
    (s2.orig = s.orig ∧ entry s2.link.peer = entry s.link.peer) ∧
    (r.2 = .ok () → Composed lower mo (entry s.link.peer) (calls.map Prod.snd) (entry r.1.link.peer) ∧
      ∃ t, r.1.trans[i]? = some t ∧ t.modlist = [] ∧ ∀ a, AttrsDict.getAttr lower t.attrs a ≠ [] → ShowsExactly lower (entry r.1.link.peer) t.attrs a) ∧
    (∀ e, r.2 = .error e → entry r.1.link.peer = entry s.link.peer ∨ Composed lower mo (entry s.link.peer) (calls.map Prod.snd) (entry r.1.link.peer)) ∧
    ((∀ c ∈ calls, Looks c.2 → ∀ a ∈ names c.2, ShowsExactly lower (entry s.link.peer) s.orig a) →
      (r.2 = .ok () → ∀ c ∈ calls, ∀ a ∈ names c.2, ShowsExactly lower (entry r.1.link.peer) r.1.orig a) ∧
      ∀ e, r.2 = .error e → r.1.orig = s.orig ∧ entry r.1.link.peer = entry s.link.peer) := by
  intro i s1 hrun s2 r
  have hagr : ∀ (e : Spec.Entry Bytes) (d : AttrsDict AVal) a, ShowsExactly lower e d a → Agrees lower ⟨d, seen e⟩ a := by
    intro e d a h
    exact EntP.shows_shown _ _ h
  have hshow : ∀ (e : Spec.Entry Bytes) (d : AttrsDict AVal) a, Agrees lower ⟨d, seen e⟩ a → ShowsExactly lower e d a := by
    intro e d a h
    have h : AttrsDict.getAttr lower d a = seen e (lower a) := h
    rw [ShowsExactly, h]
    exact shows_map _
  obtain ⟨hcInv, hcAbs⟩ := copy_same lower s.orig hv.inv hns
  have hcopy : ∀ a, AttrsDict.getAttr lower (copyAttrs lower s.orig) a = AttrsDict.getAttr lower s.orig a := by
    intro a
    rw [getAttr_abs lower _ hcInv, getAttr_abs lower _ hv.inv]
    exact hcAbs _
  have hs1t : s1.trans[i]? = some ⟨none, [], copyAttrs lower s.orig⟩ := by
    show (s.trans ++ [_])[s.trans.length]? = _
    simp
  have hkeep0 : Keep lower mo G env.obj.opts env.obj.strict (entry s.link.peer) [] ⟨none, [], copyAttrs lower s.orig⟩ (entry s.link.peer) := by
    refine ⟨.nil _, rfl, ⟨hcInv, hv.good, fun a ha => ?_⟩, fun hst a => ?_, fun _ _ => rfl, ⟨nofun, nofun, fun _ => nofun, nofun, nofun, nofun⟩⟩
    · have := hv.view a (by rw [← hcopy a]; exact ha)
      show AttrsDict.getAttr lower (copyAttrs lower s.orig) a = _
      rw [hcopy a]
      exact this
    · have := hagr _ _ _ (hfull hst a)
      show AttrsDict.getAttr lower (copyAttrs lower s.orig) a = _
      rw [hcopy a]
      exact this
  obtain ⟨f1, f2, f3, t, f4, f5, f6⟩ := run_keep hD hf hG env hconf hsel i (entry s.link.peer) s.orig calls [] s1 _ hr rfl rfl hs1t rfl (.inl ⟨_, hkeep0⟩) hrun
  change SessionP.Ready s2.link.st at f1
  change entry s2.link.peer = _ at f2
  change s2.orig = _ at f3
  change s2.trans[i]? = _ at f4
  rw [List.nil_append] at f6
  refine ⟨⟨f3, f2⟩, ?_⟩
  obtain ⟨par, ml, ats⟩ := t
  obtain rfl : par = none := f5
  have hi : i < s2.trans.length := by
    rcases Nat.lt_or_ge i s2.trans.length with h | h
    · exact h
    · rw [List.getElem?_eq_none h] at f4; cases f4
  let a := modifyObj codec (fun d => d.1.1) peer env lower typeOf s2.link s2.orig ml
  have hra : r.2 = a.result ∧ r.1.link = a.link ∧ r.1.orig = a.obj ∧
      ∃ t', r.1.trans[i]? = some t' ∧ t'.attrs = ats ∧ (a.result = .ok () → t'.modlist = []) := by
    simp only [r, TLink.step, f4, commitRoot]
    refine ⟨rfl, rfl, rfl, _, List.getElem?_set_self hi, rfl, fun h => ?_⟩
    have h : (modifyObj codec (fun d => d.1.1) peer env lower typeOf s2.link s2.orig ml).result = .ok () := h
    dsimp only
    rw [h]
  obtain ⟨r1, r2, r3, t', r4, r5, r6⟩ := hra
  obtain ⟨c1, c2⟩ := commit_step (typeOf := typeOf) env hconf s2.link f1 s2.orig ml
  change a.result = _ → srvModify lower mo _ _ = .ok (entry a.link.peer) at c1
  change (entry a.link.peer = _ ∧ a.obj = _) ∨ srvModify lower mo _ _ = .ok (entry a.link.peer) at c2
  rw [f2] at c1 c2
  rw [f3] at c2
  rw [r1, r2, r3]
  rcases f6 with ⟨es, hk⟩ | ⟨pre, suf, x, d1, d2, d3⟩
  · have hch : srvModify lower mo (entry s.link.peer) (ml.filterMap (DirectoryS.changeOf env.obj.opts)) = .ok es := by
      rw [changes_meant _ _ hk.listed.noIgnored]
      exact hk.staged
    have hes : ∀ e', srvModify lower mo (entry s.link.peer) (ml.filterMap (DirectoryS.changeOf env.obj.opts)) = .ok e' → e' = es := by
      intro e' h
      rw [hch] at h
      exact (Except.ok.inj h).symm
    refine ⟨fun hok => ?_, fun e _ => ?_, fun horig => ?_⟩
    · have he := hes _ (c1 hok)
      rw [he]
      refine ⟨hk.composed, t', r4, r6 hok, fun b hb => hshow _ _ _ ?_⟩
      rw [r5] at hb ⊢
      exact hk.view.view b hb
    · rcases c2 with ⟨h, _⟩ | h
      · exact .inl h
      · right
        rw [hes _ h]
        exact hk.composed
    · have hclean : Clean lower (onBytes mo) G (World.session entry ⟨s2.orig, s2.link⟩) env.obj.opts ml := by
        refine ⟨hk.listed.constructible, hk.listed.good, hk.listed.noIgnored, clearsPresent_nonempty _ (fun c hc ho => ?_) _, fun md hmd => ?_⟩
        · obtain ⟨md, hmd, rfl⟩ := List.mem_map.1 hc
          exact hk.listed.replaces md hmd ho
        · rcases hk.listed.from' md hmd with h | ⟨c, hc, hl, hn⟩
          · exact .inr ⟨h, hk.listed.replaces md hmd h⟩
          · left
            obtain ⟨x, hx, rfl⟩ := List.mem_map.1 hc
            show Agrees lower ⟨s2.orig, seen (entry s2.link.peer)⟩ _
            rw [f2, f3]
            exact hagr _ _ _ (horig x hx hl _ hn)
      have hgood : Good lower entry G ⟨s2.orig, s2.link⟩ := ⟨f1, by
        show View lower G ⟨s2.orig, seen (entry s2.link.peer)⟩
        rw [f2, f3]; exact hv⟩
      obtain ⟨_, m2, m3, m4⟩ := modify_over hD hf hG env hconf ⟨s2.orig, s2.link⟩ hgood ml hclean
      refine ⟨fun hok c hc b hb => hshow _ _ _ ?_, fun e he => ?_⟩
      · by_cases hl : Looks c.2
        · refine m4 b ?_
          show Agrees lower ⟨s2.orig, seen (entry s2.link.peer)⟩ b
          rw [f2, f3]
          exact hagr _ _ _ (horig c hc hl b hb)
        · obtain ⟨md, hmd, rfl⟩ := hk.listed.all c.2 (List.mem_map_of_mem hc) hl b hb
          exact (m2 hok).2 md hmd
      · obtain ⟨k1, k2⟩ := m3 e he
        exact ⟨k1.trans f3, k2.trans f2⟩
  · dsimp only at d1
    have hbad : ∀ e', srvModify lower mo (entry s.link.peer) (ml.filterMap (DirectoryS.changeOf env.obj.opts)) ≠ .ok e' := by
      intro e' h
      rw [d1, List.filterMap_append, changes_meant _ _ d2] at h
      rw [srvModify_append_error mo _ _ _ _ d3] at h
      cases h
    have hc2 : entry a.link.peer = entry s.link.peer ∧ a.obj = s.orig := c2.resolve_right (hbad _)
    exact ⟨fun hok => absurd (c1 hok) (hbad _), fun _ _ => .inl hc2.1, fun _ => ⟨fun hok => absurd (c1 hok) (hbad _), fun _ _ => ⟨hc2.2, hc2.1⟩⟩⟩

/-! ### Runs on octets -/

/-- the connection, with nothing fetched and nothing sent -/
def TranP.start : TLink Received.Decoded (List Bytes × List Bytes) := ⟨⟨Session.St.init, ([], [])⟩, CIDict.empty, []⟩

def TranP.runS (s : TLink Received.Decoded (List Bytes × List Bytes)) (cs : List (TCall Unit Unit)) : TLink Received.Decoded (List Bytes × List Bytes) :=
  s.run codec (fun d => d.1.1) (Laurelin.Spec.ApplyS.recorded OverWireP.script) lc (fun _ => .ok .default) cs

def TranP.stepS (s : TLink Received.Decoded (List Bytes × List Bytes)) (c : TCall Unit Unit) : TLink Received.Decoded (List Bytes × List Bytes) × Except Err Unit :=
  s.step codec (fun d => d.1.1) (Laurelin.Spec.ApplyS.recorded OverWireP.script) lc (fun _ => .ok .default) c

/-- `cn` is fetched by the transaction, in the first call -/
def TranP.calls1 : List (TCall Unit Unit) := [.begin none, .stage 0 OverWireP.sampleEnv (.addAttrs [(str "CN", [.text (str "y")])])]

example : NoCommit lc (fun _ => .ok .default) (str "cn=x") (Laurelin.Spec.ApplyS.recorded OverWireP.script) TranP.start TranP.calls1 := ⟨trivial, id, rfl, id, trivial⟩

set_option maxRecDepth 100000 in
example : (TranP.runS TranP.start TranP.calls1).link.peer.2.length = 1 := by
  decide +kernel

set_option maxRecDepth 100000 in
/-- **C95 (a transaction knows more than its object).** The entry has `cn` with two values, none of which the object has fetched. A transaction adds a third one (and for that fetches the others) and is committed. The
transaction shows three values, as the server has them; the object now shows `cn` with the new value only. -/
theorem c95_original_shows_less :
    let s1 := TranP.runS TranP.start TranP.calls1
    let r := TranP.stepS s1 (.commit 0 OverWireP.sampleEnv)
    r.2 = .ok () ∧ r.1.link.peer.2.length = 2 ∧ r.1.trans.map (fun t => AttrsDict.getAttr lc t.attrs (str "cn")) = [[.text (str "x"), .raw [255], .text (str "y")]] ∧
      AttrsDict.getAttr lc r.1.orig (str "cn") = [.text (str "y")] := by
  decide +kernel

set_option maxRecDepth 100000 in
/-- **C95 (commit raises after the changes have been made).** The same with a second call that deletes the new value and an old one: the server makes the changes and says so, then commit raises KeyError, and the changes are still
staged: committing again would send them again. -/
theorem c95_raises_after_change :
    let s1 := TranP.runS TranP.start (TranP.calls1 ++ [.stage 0 OverWireP.sampleEnv (.deleteAttrs [(str "cn", .list [.text (str "y"), .text (str "x")])])])
    let r := TranP.stepS s1 (.commit 0 OverWireP.sampleEnv)
    s1.trans.map (fun t => AttrsDict.getAttr lc t.attrs (str "cn")) = [[.raw [255]]] ∧
    r.2 = .error .keyError ∧ r.1.link.peer.2.length = 2 ∧ r.1.trans.map (fun t => t.modlist.length) = [2] := by
  decide +kernel

theorem TranP.composed_inv {lower : Str → Str} {m : Str → Bytes → Bytes → Bool} {e e2 : Spec.Entry Bytes} {l : List Stage} (h : Composed lower m e l e2) :
    (l = [] ∧ e = e2) ∨ ∃ cs c e1, l = cs ++ [c] ∧ Composed lower m e cs e1 ∧ Effect lower m e1 c e2 := by
  cases h with
  | nil => exact .inl ⟨rfl, rfl⟩
  | snoc h1 h2 => exact .inr ⟨_, _, _, rfl, h1, h2⟩

theorem TranP.composed_nil {lower : Str → Str} {m : Str → Bytes → Bytes → Bool} {e e2 : Spec.Entry Bytes} (h : Composed lower m e [] e2) : e = e2 := by
  rcases TranP.composed_inv h with ⟨_, h⟩ | ⟨cs, c, _, h, _⟩
  · exact h
  · simp at h

theorem TranP.composed_snoc {lower : Str → Str} {m : Str → Bytes → Bytes → Bool} {e e2 : Spec.Entry Bytes} {cs : List Stage} {c : Stage} (h : Composed lower m e (cs ++ [c]) e2) :
    ∃ e1, Composed lower m e cs e1 ∧ Effect lower m e1 c e2 := by
  rcases TranP.composed_inv h with ⟨h, _⟩ | ⟨cs', c', e1, h, h1, h2⟩
  · simp at h
  · obtain ⟨h3, h4⟩ := List.append_inj' h rfl
    cases h4
    subst h3
    exact ⟨e1, h1, h2⟩

/-! The hypotheses of `c95_effect` can be met: the object has `cn` with `x`; three calls. -/

def TranP.hasCn : AttrsDict AVal := CIDict.setItem lc CIDict.empty (str "cn") [.text (str "x")]

def TranP.entryCn : Spec.Entry Bytes := fun k => if k = str "cn" then [utf8Enc (str "x")] else []

def TranP.calls2 (env : OverWire.Env Unit Unit) : List (OverWire.Env Unit Unit × Stage) :=
  [(env, .addAttrs [(str "CN", [.text (str "y"), .text (str "x")])]), (env, .replaceAttrs [(str "l", .list [.text (str "z")])]), (env, .deleteAttrs [(str "cn", .list [.text (str "x")])])]

example (strict : Bool) : ∃ peer, Conforms lc (fun _ a b => decide (a = b)) (str "cn=x") (fun e => e) peer ∧
    let env : OverWire.Env Unit Unit := { OverWireP.sampleEnv with obj := { OverWireP.sampleEnv.obj with strict := strict } }
    let s : TLink Received.Decoded (Spec.Entry Bytes) := ⟨⟨Session.St.init, TranP.entryCn⟩, TranP.hasCn, []⟩
    let s2 := (s.step codec (fun d => d.1.1) peer lc (fun _ => .ok .default) (.begin none : TCall Unit Unit)).1.run codec (fun d => d.1.1) peer lc (fun _ => .ok .default) ((TranP.calls2 env).map (fun c => .stage 0 c.1 c.2))
    let r := s2.step codec (fun d => d.1.1) peer lc (fun _ => .ok .default) (.commit 0 env)
    s2.link.peer = TranP.entryCn ∧ (r.2 = .ok () → r.1.link.peer (str "cn") = [utf8Enc (str "y")] ∧ r.1.link.peer (str "l") = [utf8Enc (str "z")]) ∧
      ∀ e, r.2 = .error e → r.1.link.peer = TranP.entryCn ∧ r.1.orig = TranP.hasCn := by
  obtain ⟨peer, hp, hsel, _⟩ := selective_exists lc (fun _ a b => decide (a = b)) (str "cn=x")
  refine ⟨peer, hp, ?_⟩
  intro env s s2 r
  have hx : ∀ v : Str, Spec.Wire.Shows (AVal.bytes (.text v)) (.text v) := fun _ => rfl
  have hi := CIDict.inv_set lc _ (str "cn") [AVal.text (str "x")] (CIDict.inv_empty (V := List AVal) lc)
  have hagr : ∀ a, Agrees lc ⟨TranP.hasCn, seen TranP.entryCn⟩ a := by
    intro a
    rw [agrees_iff lc _ hi]
    show (CIDict.abs (CIDict.setItem lc CIDict.empty (str "cn") [AVal.text (str "x")]) (lc a)).getD [] = _
    rw [CIDict.abs_set lc _ _ _ (CIDict.inv_empty lc), CIDict.abs_empty]
    simp only [FoldMap.put, seen, TranP.entryCn, show lc (str "cn") = str "cn" from by decide]
    split
    · decide
    · rfl
  have hall : ∀ a, ShowsExactly lc TranP.entryCn TranP.hasCn a := by
    intro a
    have h : AttrsDict.getAttr lc TranP.hasCn a = seen TranP.entryCn (lc a) := hagr a
    rw [ShowsExactly, h]
    exact shows_map _
  have hview : View lc (fun _ v => Spec.Wire.Shows v.bytes v) ⟨TranP.hasCn, seen TranP.entryCn⟩ := by
    refine ⟨hi, ?_, fun a _ => hagr a⟩
    intro a x hx
    obtain ⟨b, _, rfl⟩ := List.mem_map.1 hx
    rw [bytes_shown]
    exact WireP.shown_ok b
  have hns : NoStale lc TranP.hasCn := by
    intro kv hkv
    simp only [TranP.hasCn, CIDict.setItem, CIDict.empty, PDict.set, List.mem_singleton] at hkv
    subst hkv; decide
  have hrun : StagedRun lc (fun _ => .ok .default) (fun _ v => Spec.Wire.Shows v.bytes v) peer env 0 [] (s.step codec (fun d => d.1.1) peer lc (fun _ => .ok .default) (.begin none : TCall Unit Unit)).1 (TranP.calls2 env) := by
    have hfr : ∀ (tr : List (Trans AVal)) (done : List Stage) (c : Stage) (vs : List AVal), vs ≠ [] → (∀ a ∈ names c, Looks c → a = str "cn" ∨ a = str "CN") →
        tr[0]?.map (fun t => (AttrsDict.getAttr lc t.attrs (str "cn"), AttrsDict.getAttr lc t.attrs (str "CN"))) = some (vs, vs) → ∀ t, tr[0]? = some t → Fresh lc strict done t.attrs c := by
      intro tr done c vs hvs hc h t ht _ hl a ha _
      rw [ht] at h
      have h := Option.some.inj h
      rcases hc a ha hl with rfl | rfl
      · rw [show AttrsDict.getAttr lc t.attrs (str "cn") = vs from congrArg Prod.fst h]; exact hvs
      · rw [show AttrsDict.getAttr lc t.attrs (str "CN") = vs from congrArg Prod.snd h]; exact hvs
    have h1 : Sound lc (fun _ => .ok .default) (fun _ v => Spec.Wire.Shows v.bytes v) env.obj.opts (.addAttrs [(str "CN", [.text (str "y"), .text (str "x")])]) := by
      refine ⟨by decide, fun kv hkv => ?_⟩
      rw [List.mem_singleton.1 hkv]
      refine ⟨⟨_, rfl⟩, fun v hv => ?_⟩
      simp only [List.mem_cons, List.not_mem_nil, or_false] at hv
      rcases hv with rfl | rfl <;> exact hx _
    have h2 : Sound lc (fun _ => .ok .default) (fun _ v => Spec.Wire.Shows v.bytes v) env.obj.opts (.replaceAttrs [(str "l", .list [.text (str "z")])]) := by
      refine ⟨by decide, fun kv hkv => ?_⟩
      rw [List.mem_singleton.1 hkv]
      refine ⟨by simp [valsList], fun v hv => ?_⟩
      rw [List.mem_singleton.1 hv]
      exact hx _
    have h3 : Sound lc (fun _ => .ok .default) (fun _ v => Spec.Wire.Shows v.bytes v) env.obj.opts (.deleteAttrs [(str "cn", .list [.text (str "x")])]) := by
      refine ⟨by decide, fun kv hkv => ?_⟩
      rw [List.mem_singleton.1 hkv]
      refine ⟨⟨_, rfl⟩, fun v hv => ?_, fun _ => by simp⟩
      rw [List.mem_singleton.1 hv]
      exact hx _
    refine ⟨⟨rfl, rfl, rfl⟩, h1, ?_, ?_, ⟨rfl, rfl, rfl⟩, h2, ?_, ?_, ⟨rfl, rfl, rfl⟩, h3, ?_, ?_, trivial⟩
    · exact hfr _ _ _ [.text (str "x")] (by simp) (fun a ha _ => .inr (List.mem_singleton.1 ha)) rfl
    · cases strict <;> rfl
    · exact fun t _ _ hl => absurd hl id
    · cases strict <;> rfl
    · exact hfr _ _ _ [.text (str "x"), .text (str "y")] (by simp) (fun a ha _ => .inl (List.mem_singleton.1 ha)) (by cases strict <;> rfl)
    · cases strict <;> rfl
  obtain ⟨⟨_, k1⟩, k2, _, k3⟩ := c95_effect (typeOf := fun _ => .ok .default) (G := fun _ v => Spec.Wire.Shows v.bytes v) octets_decide ⟨fun _ _ _ => rfl, fun _ _ _ _ h => h⟩ (fun _ _ h => h) env hp hsel s SessionP.ready_init hview hns (fun _ => hall) (TranP.calls2 env) hrun
  refine ⟨k1, fun hok => ?_, fun e he => ?_⟩
  · obtain ⟨hc, _⟩ := k2 hok
    obtain ⟨e2, hc2, hd⟩ := TranP.composed_snoc (cs := [.addAttrs [(str "CN", [.text (str "y"), .text (str "x")])], .replaceAttrs [(str "l", .list [.text (str "z")])]]) hc
    obtain ⟨e1, hc1, hr⟩ := TranP.composed_snoc (cs := [.addAttrs [(str "CN", [.text (str "y"), .text (str "x")])]]) hc2
    obtain ⟨e0, hc0, ha⟩ := TranP.composed_snoc (cs := []) hc1
    have he0 : TranP.entryCn = e0 := TranP.composed_nil hc0
    subst he0
    have a1 := ha.1 _ (List.mem_singleton.2 rfl)
    have r1 := hr.1 _ (List.mem_singleton.2 rfl)
    have r2 := hr.2 (str "cn") (fun kv hkv => by rw [List.mem_singleton.1 hkv]; decide)
    have d1 := hd.1 _ (List.mem_singleton.2 rfl)
    have d2 := hd.2 (str "l") (fun kv hkv => by rw [List.mem_singleton.1 hkv]; decide)
    dsimp only [show lc (str "CN") = str "cn" by decide, show lc (str "cn") = str "cn" by decide, show lc (str "l") = str "l" by decide] at a1 r1 d1
    constructor
    · refine d1.trans ?_
      rw [show lc (str "cn") = str "cn" by decide, r2, show e1 (str "cn") = _ from a1]
      decide
    · exact d2.trans r1
  · obtain ⟨q1, q2⟩ := (k3 (fun _ _ _ _ _ => hall _)).2 e he
    exact ⟨q2, q1⟩

end Laurelin.Props
