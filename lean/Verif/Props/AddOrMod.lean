import Verif.Model.AddOrMod
import Verif.Props.Mirror
/-!
# C54 add_or_mod, C09 for `add`
-/
set_option linter.unusedSectionVars false
namespace Laurelin.Spec
variable {V : Type} [DecidableEq V]

/-- RFC 4511 section 4.7: adding an entry. Every attribute needs a value; values of one attribute must be different. -/
def srvCreate (lower : Str → Str) (m : Str → V → V → Bool) (attrs : List (Str × List V)) : Except ServerErr (Entry V) :=
  if ∃ kv ∈ attrs, kv.2 = [] then .error .noSuchAttribute
  else srvModify lower m (fun _ => []) (attrs.map fun kv => ⟨.add, kv.1, kv.2⟩)

/-- What the server holds at one DN after receiving modify requests and then add requests: a modify of a missing entry and an add
of an existing one are rejected. -/
def dirMods (lower : Str → Str) (m : Str → V → V → Bool) (w : Option (Entry V)) : List (ModRequest V) → Option (Entry V)
  | [] => w
  | rq :: rqs => match w with
    | none => dirMods lower m none rqs
    | some e => match srvModify lower m e rq.changes with
      | .ok e' => dirMods lower m (some e') rqs
      | .error _ => dirMods lower m (some e) rqs

def dirAdds (lower : Str → Str) (m : Str → V → V → Bool) (w : Option (Entry V)) : List (AddReq V) → Option (Entry V)
  | [] => w
  | rq :: rqs => match w with
    | some e => dirAdds lower m (some e) rqs
    | none => match srvCreate lower m rq.attrs with
      | .ok e => dirAdds lower m (some e) rqs
      | .error _ => dirAdds lower m none rqs

/-- the server's answer to a modify request for this DN -/
def dirModAnswer (lower : Str → Str) (m : Str → V → V → Bool) (w : Option (Entry V)) (rq : ModRequest V) : Except Err Unit :=
  match w with
  | none => .error .ldapError
  | some e => match srvModify lower m e rq.changes with
    | .ok _ => .ok ()
    | .error _ => .error .ldapError

/-- the server's answer to an add request for this DN -/
def dirAddAnswer (lower : Str → Str) (m : Str → V → V → Bool) (w : Option (Entry V)) (rq : AddReq V) : Except Err Unit :=
  match w with
  | some _ => .error .ldapError
  | none => match srvCreate lower m rq.attrs with
    | .ok _ => .ok ()
    | .error _ => .error .ldapError

/-- the server's answer to `get`: nothing there, or (some of) the entry's attributes with all their values -/
structure Reads (lower : Str → Str) (w : Option (Entry V)) (r : Except Err (PDict Str (List V))) : Prop where
  missing : w = none → r = .error .noResults
  there : ∀ e, w = some e → r ≠ .error .noResults
  sound : ∀ e got, w = some e → r = .ok got → ∀ kv ∈ got, kv.2 = e (lower kv.1)

end Laurelin.Spec

namespace Laurelin.Props
open Laurelin Spec
variable {V : Type} [DecidableEq V]

/-- **C09 (add).** If a validator rejects the new object, `add` raises the first rejection and sends nothing; if all accept, the request sent is
exactly what was asked for. -/
theorem c09_add_gate (lower : Str → Str) (unbound : Bool) (vs : List ((Str × AttrsDict V) → Except Err Unit)) (ctrls : Except Err Unit)
    (server : AddReq V → Except Err Unit) (dn : Str) (attrs : List (Str × List V)) :
    let o := ldapAdd lower unbound vs ctrls server dn attrs
    (∀ e, runValidation vs (dn, CIDict.update lower CIDict.empty attrs) = .error e → o.sent = [] ∧ ∃ e', o.result = .error e' ∧
      (unbound = false → ctrls = .ok () → e' = e)) ∧
    (o.sent = [] ∨ o.sent = [⟨dn, attrs⟩]) ∧
    (∀ d, o.result = .ok d → o.sent = [⟨dn, attrs⟩] ∧ server ⟨dn, attrs⟩ = .ok () ∧ d = CIDict.update lower CIDict.empty attrs) := by
  intro o
  simp only [o, ldapAdd]
  cases unbound with
  | true => simp
  | false =>
    cases ctrls with
    | error e => simp
    | ok _ =>
      cases hv : runValidation vs (dn, CIDict.update lower CIDict.empty attrs) with
      | error e => simp
      | ok _ =>
        cases hs : server ⟨dn, attrs⟩ <;> simp

section
variable (lower : Str → Str) {typeOf : TypeOf V} {m : Str → V → V → Bool} {G : Str → V → Prop}

namespace AddOrMod

theorem srvAdd_app (q : V → V → Bool) (vs cur l : List V) (h : srvAdd q cur vs = .ok l) : l = cur ++ vs := by
  induction vs generalizing cur with
  | nil => simp [srvAdd] at h; simp [h]
  | cons v vs ih =>
    simp only [srvAdd] at h
    split at h
    · simp at h
    · have := ih _ h; simpa using this

theorem adds_effect (cs : List (Change V)) (hall : ∀ c ∈ cs, c.op = .add) (e e' : Entry V) (h : srvModify lower m e cs = .ok e') :
    (∀ x, ∃ l, e' x = e x ++ l) ∧ (∀ c ∈ cs, ∀ v ∈ c.vals, v ∈ e' (lower c.attr)) ∧
    (∀ x, (∀ c ∈ cs, lower c.attr ≠ x) → e' x = e x) := by
  induction cs generalizing e with
  | nil => simp [srvModify] at h; subst h; exact ⟨fun x => ⟨[], by simp⟩, by simp, fun _ _ => rfl⟩
  | cons c cs ih =>
    simp only [srvModify, srvChange, hall c (by simp)] at h
    split at h
    · rename_i e1 h1
      split at h1
      · rename_i l hl
        have hl := srvAdd_app _ _ _ _ hl
        simp at h1
        obtain ⟨a, b, d⟩ := ih (fun c hc => hall c (by simp [hc])) e1 h
        have he1 : ∀ x, ∃ l, e1 x = e x ++ l := by
          intro x
          rw [← h1]
          simp only [Entry.put]
          split
          · rename_i hx; rw [hx, hl]; exact ⟨_, rfl⟩
          · exact ⟨[], by simp⟩
        refine ⟨?_, ?_, ?_⟩
        · intro x
          obtain ⟨l1, h2⟩ := a x
          obtain ⟨l2, h3⟩ := he1 x
          exact ⟨l2 ++ l1, by rw [h2, h3]; simp⟩
        · intro c' hc' v hv
          rcases List.mem_cons.mp hc' with rfl | hc'
          · obtain ⟨l1, h2⟩ := a (lower c'.attr)
            rw [h2, ← h1]
            simp [Entry.put, hl, hv]
          · exact b c' hc' v hv
        · intro x hx
          rw [d x (fun c hc => hx c (by simp [hc])), ← h1]
          have := hx c (by simp)
          simp [Entry.put, Ne.symm this]
      · simp at h1
    · simp at h

theorem adds_exact (cs : List (Change V)) (hall : ∀ c ∈ cs, c.op = .add) (hn : (cs.map fun c => lower c.attr).Nodup) (e e' : Entry V)
    (h : srvModify lower m e cs = .ok e') : ∀ c ∈ cs, e' (lower c.attr) = e (lower c.attr) ++ c.vals := by
  induction cs generalizing e with
  | nil => simp
  | cons c cs ih =>
    simp only [List.map_cons, List.nodup_cons, List.mem_map] at hn
    simp only [srvModify, srvChange, hall c (by simp)] at h
    split at h
    · rename_i e1 h1
      split at h1
      · rename_i l hl
        have hl := srvAdd_app _ _ _ _ hl
        simp at h1
        intro c' hc'
        rcases List.mem_cons.mp hc' with rfl | hc'
        · have := (adds_effect lower cs (fun c hc => hall c (by simp [hc])) e1 e' h).2.2 (lower c'.attr)
            (fun d hd heq => hn.1 ⟨d, hd, heq⟩)
          rw [this, ← h1]; simp [Entry.put, hl]
        · rw [ih (fun c hc => hall c (by simp [hc])) hn.2 e1 h c' hc', ← h1]
          have : lower c'.attr ≠ lower c.attr := fun heq => hn.1 ⟨c', hc', heq⟩
          simp [Entry.put, this]
      · simp at h1
    · simp at h

theorem replaces_effect (cs : List (Change V)) (hall : ∀ c ∈ cs, c.op = .replace) (hn : (cs.map fun c => lower c.attr).Nodup) (e e' : Entry V)
    (h : srvModify lower m e cs = .ok e') :
    (∀ c ∈ cs, e' (lower c.attr) = c.vals) ∧ (∀ x, (∀ c ∈ cs, lower c.attr ≠ x) → e' x = e x) := by
  induction cs generalizing e with
  | nil => simp [srvModify] at h; subst h; simp
  | cons c cs ih =>
    simp only [List.map_cons, List.nodup_cons, List.mem_map] at hn
    simp only [srvModify, srvChange, hall c (by simp)] at h
    obtain ⟨a, b⟩ := ih (fun c hc => hall c (by simp [hc])) hn.2 _ h
    refine ⟨?_, ?_⟩
    · intro c' hc'
      rcases List.mem_cons.mp hc' with rfl | hc'
      · rw [b (lower c'.attr) (fun d hd heq => hn.1 ⟨d, hd, heq⟩)]; simp [Entry.put]
      · exact a c' hc'
    · intro x hx
      rw [b x (fun c hc => hx c (by simp [hc]))]
      have := hx c (by simp)
      simp [Entry.put, Ne.symm this]

/-- the object built from a read shows only what the entry has -/
theorem view_of_read (e : Entry V) (hg : GoodEntry lower G e) (got : PDict Str (List V)) (hs : ∀ kv ∈ got, kv.2 = e (lower kv.1)) :
    View lower G ⟨CIDict.update lower CIDict.empty got, e⟩ := by
  have hE : View lower G (⟨CIDict.empty, e⟩ : Session V) :=
    ⟨CIDict.inv_empty lower, hg, fun attr h => absurd (by rw [getAttr_abs lower _ (CIDict.inv_empty lower), CIDict.abs_empty]; rfl) h⟩
  exact (c10_refresh_step lower ⟨CIDict.empty, e⟩ hE (got.map Prod.fst) got
    ⟨hs,
     fun a ha _ => by obtain ⟨kv, hkv, rfl⟩ := List.mem_map.1 ha; exact ⟨kv, hkv, rfl⟩⟩).1

/-- one `add_attrs` call against the server -/
theorem add_call (hD : Decides typeOf m G) (hf : FoldCompat lower m G) (hrefl : ∀ a v, m a v v = true)
    (read : Entry V → List Str → Except Err (PDict Str (List V)))
    (hread : ∀ e attrs got, read e attrs = .ok got → FetchOf lower e attrs got)
    (s : Session V) (hm : View lower G s) (env : ObjEnv V) (new : List (Str × List V))
    (hc : CleanCall lower typeOf m G s env (.addAttrs new)) :
    let r := s.call lower typeOf m read env (.addAttrs new)
    (r.2 = .ok () → (∀ x, ∃ l, r.1.entry x = s.entry x ++ l) ∧ (∀ kv ∈ new, ∀ v ∈ kv.2, ∃ x ∈ r.1.entry (lower kv.1), m kv.1 x v = true) ∧
      (∀ x, (∀ kv ∈ new, lower kv.1 ≠ x) → r.1.entry x = s.entry x)) ∧
    (∀ e, r.2 = .error e → r.1.entry = s.entry) := by
  obtain ⟨h1, h2, h3, h4⟩ := hc
  have hpre : ∀ d1, (if env.strict = true then Except.ok s.obj else refreshMissing lower (read s.entry) s.obj
      ((new.map (fun kv => (kv.1, Vals.list kv.2))).map Prod.fst)) = .ok d1 →
      View lower G ⟨d1, s.entry⟩ ∧ ∀ kv ∈ new, Agrees lower ⟨d1, s.entry⟩ kv.1 := by
    intro d1 hd
    split at hd
    · rename_i hst
      simp only [Except.ok.injEq] at hd; subst hd
      exact ⟨hm, h4 hst⟩
    · have := refreshMissing_step lower s hm _ read hread d1 hd
      refine ⟨this.1, fun kv hkv => this.2.2 _ ?_⟩
      simp only [List.map_map, List.mem_map]
      exact ⟨kv, hkv, rfl⟩
  intro r
  simp only [r, Session.call, ObjEnv.addAttrs]
  split
  · simp [ObjEnv.failed, serve]
  · rename_i d1 hd1
    obtain ⟨hv1, hk1⟩ := hpre d1 hd1
    have hmod := c05_add_modlist lower typeOf m G hD d1 (view_good lower hv1) new h1 h2 h3
    split
    · simp [ObjEnv.failed, serve]
    · rename_i mods hmods
      have hm2 : mods = addWanted lower m d1 new := by
        by_cases hb : ∃ kv ∈ new, kv.2 = [] ∧ AttrsDict.getAttr lower d1 kv.1 = []
        · rw [hmod.2 hb] at hmods; simp at hmods
        · rw [hmod.1 (fun kv hkv he hx => hb ⟨kv, hkv, he, hx⟩)] at hmods
          simpa using hmods.symm
      subst hm2
      have hstep := c10_modify_step lower hD hf read ⟨d1, s.entry⟩ hv1 env _ (clean_addWanted (m := m) lower ⟨d1, s.entry⟩ env.opts new h3 hk1)
      simp only [Session.call] at hstep
      obtain ⟨_, _, hok, herr, _⟩ := hstep
      refine ⟨?_, ?_⟩
      · intro hr
        have hsrv := (hok hr).1
        obtain ⟨c1, c2⟩ := c05_effect lower m hrefl d1 new
        have hall : ∀ c ∈ meant (addWanted lower m d1 new), c.op = .add := by
          intro c hc
          obtain ⟨md, hmd, rfl⟩ := List.mem_map.1 hc
          exact (c1 md hmd).1
        obtain ⟨a, b, d⟩ := adds_effect lower _ hall _ _ hsrv
        refine ⟨a, ?_, ?_⟩
        · intro kv hkv v hv
          rcases c2 kv hkv v hv with ⟨x, hx, hxm⟩ | ⟨md, hmd, ha, u, hu, x, hx, hxm⟩
          · refine ⟨x, ?_, hxm⟩
            have : x ∈ s.entry (lower kv.1) := by
              have hag := hk1 kv hkv
              simp only [Agrees] at hag
              rwa [← hag]
            obtain ⟨l, hl⟩ := a (lower kv.1)
            rw [hl]; simp [this]
          · refine ⟨x, ?_, hxm⟩
            have := b ⟨md.op, md.attr, valsList md.vals⟩ (List.mem_map.2 ⟨md, hmd, rfl⟩) x (by simpa [hu, valsList] using hx)
            simpa [ha] using this
        · intro x hx
          apply d x
          intro c hc
          obtain ⟨md, hmd, rfl⟩ := List.mem_map.1 hc
          simp only [addWanted, List.mem_filterMap] at hmd
          obtain ⟨kv, hkv, he⟩ := hmd
          split at he
          · simp at he
          · simp at he; subst he; exact hx kv hkv
      · intro e he
        have := herr e he
        have := congrArg Session.entry this
        simpa using this

theorem dirMods_serve (e : Entry V) (rqs : List (ModRequest V)) : dirMods lower m (some e) rqs = some (serve lower m e rqs) := by
  induction rqs generalizing e with
  | nil => rfl
  | cons rq rqs ih => cases h : srvModify lower m e rq.changes <;> simp [dirMods, serve, h, ih]

theorem dirAdds_some (e : Entry V) (rqs : List (AddReq V)) : dirAdds lower m (some e) rqs = some e := by
  induction rqs with
  | nil => rfl
  | cons rq rqs ih => simpa [dirAdds] using ih

/-- what `add` does to a DN with no entry -/
theorem add_missing (unbound : Bool) (vs : List ((Str × AttrsDict V) → Except Err Unit)) (ctrls : Except Err Unit) (dn : Str)
    (attrs : List (Str × List V)) (hnames : (attrs.map fun kv => lower kv.1).Nodup) :
    let o := ldapAdd lower unbound vs ctrls (dirAddAnswer lower m none) dn attrs
    (∀ d, o.result = .ok d → ∃ e', dirAdds lower m none o.sent = some e' ∧ (∀ kv ∈ attrs, e' (lower kv.1) = kv.2) ∧
      (∀ x, (∀ kv ∈ attrs, lower kv.1 ≠ x) → e' x = []) ∧ (∀ a, AttrsDict.getAttr lower d a = e' (lower a))) ∧
    (∀ e, o.result = .error e → dirAdds lower m none o.sent = none) := by
  intro o
  have hgate := c09_add_gate lower unbound vs ctrls (dirAddAnswer lower m none) dn attrs
  refine ⟨?_, ?_⟩
  · intro d hd
    obtain ⟨h1, h2, rfl⟩ := hgate.2.2 d hd
    have h1 : o.sent = [⟨dn, attrs⟩] := h1
    rw [h1]
    simp only [dirAddAnswer] at h2
    cases he' : srvCreate lower m attrs with
    | ok e' =>
      simp only [dirAdds, he']
      simp only [srvCreate] at he'
      split at he'
      · simp at he'
      · rename_i hne
        have hall : ∀ c ∈ attrs.map (fun kv => (⟨.add, kv.1, kv.2⟩ : Change V)), c.op = .add := by
          intro c hc; obtain ⟨kv, _, rfl⟩ := List.mem_map.1 hc; rfl
        have hn : ((attrs.map (fun kv => (⟨.add, kv.1, kv.2⟩ : Change V))).map fun c => lower c.attr).Nodup := by
          simpa [List.map_map, Function.comp_def] using hnames
        have hex : ∀ kv ∈ attrs, e' (lower kv.1) = kv.2 := by
          intro kv hkv
          have := adds_exact lower _ hall hn _ _ he' ⟨.add, kv.1, kv.2⟩ (List.mem_map.2 ⟨kv, hkv, rfl⟩)
          simpa using this
        have hout : ∀ x, (∀ kv ∈ attrs, lower kv.1 ≠ x) → e' x = [] := by
          intro x hx
          exact (adds_effect lower _ hall _ _ he').2.2 x (by
            intro c hc; obtain ⟨kv, hkv, rfl⟩ := List.mem_map.1 hc; exact hx kv hkv)
        refine ⟨e', rfl, hex, hout, ?_⟩
        intro a
        have hu := update_abs lower attrs CIDict.empty (CIDict.inv_empty lower) e' (fun kv hkv => (hex kv hkv).symm)
        rw [getAttr_abs lower _ hu.1]
        by_cases hin : ∃ kv ∈ attrs, lower kv.1 = lower a
        · rw [(hu.2 _).1 hin]; rfl
        · rw [(hu.2 _).2 hin, CIDict.abs_empty]
          have := hout (lower a) (fun kv hkv heq => hin ⟨kv, hkv, heq⟩)
          rw [this]; rfl
    | error x => simp [he'] at h2
  · intro e he
    rcases hgate.2.1 with h | h
    · have h : o.sent = [] := h
      rw [h]; rfl
    · have h : o.sent = [⟨dn, attrs⟩] := h
      rw [h]
      simp only [dirAdds]
      split
      · rename_i e' he'
        -- the server would have accepted, so the result would have been a success
        exfalso
        simp only [o, ldapAdd] at he h
        split at he
        · rename_i hu; simp [hu] at h
        · rename_i hu
          simp only [hu] at h
          split at he
          · simp at h
          · simp only [] at h
            split at he
            · rename_i hv; simp [hv] at h
            · rename_i hv
              split at he
              · rename_i hs
                simp [dirAddAnswer, he'] at hs
              · simp at he
      · rfl

/-- `add` on a DN that has an entry never succeeds -/
theorem add_existing (e : Entry V) (unbound : Bool) (vs : List ((Str × AttrsDict V) → Except Err Unit)) (ctrls : Except Err Unit) (dn : Str)
    (attrs : List (Str × List V)) (d : AttrsDict V) :
    (ldapAdd lower unbound vs ctrls (dirAddAnswer lower m (some e)) dn attrs).result ≠ .ok d := by
  intro h
  have := ((c09_add_gate lower unbound vs ctrls (dirAddAnswer lower m (some e)) dn attrs).2.2 d h).2.1
  simp [dirAddAnswer] at this

end AddOrMod
open AddOrMod

/-- What the server holds at the DN after the call. -/
def _root_.Laurelin.PatOut.after (lower : Str → Str) (m : Str → V → V → Bool) (w : Option (Entry V)) (o : PatOut V) : Option (Entry V) :=
  dirAdds lower m (dirMods lower m w o.mods) o.adds

/-- **C54 (add).** After a successful `add_or_mod_add_if_exists` – whether or not the entry existed – the entry exists, has every requested value (up to the
attribute's matching), keeps every value it had, and has nothing else in attributes not mentioned; what the returned object shows is what the entry holds. -/
theorem c54_add (hD : Decides typeOf m G) (hf : FoldCompat lower m G) (hrefl : ∀ a v, m a v v = true)
    (read : Entry V → List Str → Except Err (PDict Str (List V)))
    (hread : ∀ e attrs got, read e attrs = .ok got → FetchOf lower e attrs got)
    (w : Option (Entry V)) (hg : ∀ e, w = some e → GoodEntry lower G e) (getAll : Except Err (PDict Str (List V))) (hget : Reads lower w getAll)
    (env : ObjEnv V) (vs : List ((Str × AttrsDict V) → Except Err Unit)) (attrs : List (Str × List V))
    (hnames : (attrs.map fun kv => lower kv.1).Nodup) (ht : ∀ a ∈ attrs.map Prod.fst, ∃ t, typeOf a = .ok t)
    (hgood : ∀ kv ∈ attrs, ∀ v ∈ kv.2, G kv.1 v)
    (hstrict : env.strict = true → ∀ e got, w = some e → getAll = .ok got → ∀ kv ∈ attrs, e (lower kv.1) ≠ [] → ∃ x ∈ got, lower x.1 = lower kv.1)
    (d : AttrsDict V) :
    let add := ldapAdd lower env.unbound vs env.ctrls (dirAddAnswer lower m w) env.dn attrs
    let o := addOrModAdd lower typeOf env getAll (fun a => read (w.getD fun _ => []) a) (dirModAnswer lower m w) add attrs
    o.result = .ok d →
      ∃ e', o.after lower m w = some e' ∧
        (∀ kv ∈ attrs, ∀ v ∈ kv.2, ∃ x ∈ e' (lower kv.1), m kv.1 x v = true) ∧
        (∀ e, w = some e → ∀ x, ∀ v ∈ e x, v ∈ e' x) ∧
        (∀ x, (∀ kv ∈ attrs, lower kv.1 ≠ x) → e' x = (w.getD fun _ => []) x) ∧
        (∀ a, AttrsDict.getAttr lower d a ≠ [] → AttrsDict.getAttr lower d a = e' (lower a)) := by
  intro add o ho
  cases w with
  | none =>
    have hgn := hget.missing rfl
    simp only [o, addOrModAdd, getThen, hgn, orAdd] at ho ⊢
    obtain ⟨e', h1, h2, h3, h4⟩ := (add_missing lower env.unbound vs env.ctrls env.dn attrs hnames).1 d ho
    refine ⟨e', by simpa [PatOut.after, dirMods] using h1, ?_, by simp, ?_, fun a _ => h4 a⟩
    · intro kv hkv v hv
      exact ⟨v, by rw [h2 kv hkv]; exact hv, hrefl _ _⟩
    · intro x hx; simpa using h3 x hx
  | some e =>
    have hno : ∀ d, add.result ≠ .ok d := fun d => add_existing lower e env.unbound vs env.ctrls env.dn attrs d
    simp only [o, addOrModAdd, getThen] at ho ⊢
    cases hga : getAll with
    | error x =>
      rw [hga] at ho
      have := hget.there e rfl
      rw [hga] at this
      cases x <;> simp_all
    | ok got =>
      simp only [hga] at ho ⊢
      have hview := view_of_read lower e (hg e rfl) got (hget.sound e got rfl hga)
      have hcl : CleanCall lower typeOf m G ⟨CIDict.update lower CIDict.empty got, e⟩ env (.addAttrs attrs) := by
        refine ⟨?_, ht, hgood, ?_⟩
        · have : (attrs.map fun kv => lower kv.1) = (attrs.map Prod.fst).map lower := by simp [List.map_map, Function.comp_def]
          rw [this] at hnames
          exact (List.pairwise_map.1 hnames).imp (fun h heq => h (by rw [heq]))
        · intro hst kv hkv
          have hu := update_abs lower got CIDict.empty (CIDict.inv_empty lower) e (hget.sound e got rfl hga)
          rw [agrees_iff lower _ hu.1]
          by_cases hin : ∃ x ∈ got, lower x.1 = lower kv.1
          · rw [(hu.2 _).1 hin]; rfl
          · rw [(hu.2 _).2 hin, CIDict.abs_empty]
            show [] = e (lower kv.1)
            by_cases hx : e (lower kv.1) = []
            · exact hx.symm
            · exact absurd (hstrict hst e got rfl hga kv hkv hx) hin
      have hcall := add_call lower hD hf hrefl read hread ⟨CIDict.update lower CIDict.empty got, e⟩ hview env attrs hcl
      have hv2 := c10_call_step lower hD hf read hread ⟨CIDict.update lower CIDict.empty got, e⟩ hview env (.addAttrs attrs) hcl
      have hsrv : dirModAnswer lower m (some e) = answer lower m e := rfl
      simp only [Session.call, Option.getD_some, hsrv] at hcall hv2 ho ⊢
      generalize hR : ObjEnv.addAttrs lower typeOf env (read e) (answer lower m e) (CIDict.update lower CIDict.empty got)
        (attrs.map fun kv => (kv.1, Vals.list kv.2)) = R at hcall hv2 ho ⊢
      cases hres : R.2.result with
      | ok u =>
        simp only [hres] at ho ⊢
        simp at ho
        obtain ⟨a, b, c⟩ := hcall.1 hres
        refine ⟨serve lower m e R.2.sent, by simp [PatOut.after, dirMods_serve, dirAdds], b, ?_, ?_, ?_⟩
        · rintro e1 h1 x v hv
          cases h1
          obtain ⟨l, hl⟩ := a x
          rw [hl]; simp [hv]
        · intro x hx; simpa using c x hx
        · intro at' hne
          rw [← ho] at hne ⊢
          exact hv2.view at' hne
      | error x =>
        simp only [hres] at ho
        cases x <;> simp [orAdd] at ho
        exact absurd ho (hno d)

/-- the Mods of `replace_attrs` -/
def replacing (attrs : List (Str × List V)) : List (Mod V) := attrs.map (fun kv => ⟨.replace, kv.1, .list kv.2⟩)

/-- `_local_modify` for these: each attribute has the values given, an empty list removes it -/
theorem local_replaces (attrs : List (Str × List V)) (hn : (attrs.map fun kv => lower kv.1).Nodup) (d : AttrsDict V) (hi : CIDict.Inv lower d)
    (hok : (localModify lower typeOf d (replacing attrs)).2 = .ok ()) :
    let d' := (localModify lower typeOf d (replacing attrs)).1
    CIDict.Inv lower d' ∧ (∀ kv ∈ attrs, AttrsDict.getAttr lower d' kv.1 = kv.2) ∧ (∀ x, (∀ kv ∈ attrs, lower kv.1 ≠ x) → CIDict.abs d' x = CIDict.abs d x) := by
  induction attrs generalizing d with
  | nil => exact ⟨hi, by simp, fun _ _ => rfl⟩
  | cons kv rest ih =>
    obtain ⟨a, l⟩ := kv
    simp only [List.map_cons, List.nodup_cons, List.mem_map, not_exists, not_and] at hn
    have step : ∀ d1, CIDict.Inv lower d1 → (CIDict.abs d1 (lower a)).getD [] = l → (∀ x, lower a ≠ x → CIDict.abs d1 x = CIDict.abs d x) →
        (localModify lower typeOf d1 (replacing rest)).2 = .ok () →
        let d' := (localModify lower typeOf d1 (replacing rest)).1
        CIDict.Inv lower d' ∧ (∀ kv ∈ (a, l) :: rest, AttrsDict.getAttr lower d' kv.1 = kv.2) ∧ (∀ x, (∀ kv ∈ (a, l) :: rest, lower kv.1 ≠ x) → CIDict.abs d' x = CIDict.abs d x) := by
      intro d1 hi1 ha hx hok1
      obtain ⟨h1, h2, h3⟩ := ih hn.2 d1 hi1 hok1
      refine ⟨h1, ?_, ?_⟩
      · intro kv hkv
        rcases List.mem_cons.1 hkv with rfl | hkv
        · rw [getAttr_abs lower _ h1, h3 _ (fun q hq => hn.1 q hq)]
          exact ha
        · exact h2 kv hkv
      · intro x hxx
        rw [h3 x (fun q hq => hxx q (by simp [hq])), hx x (hxx (a, l) (by simp))]
    cases l with
    | nil =>
      simp only [replacing, List.map_cons, localModify, localModify1] at hok ⊢
      cases hab : CIDict.abs d (lower a) with
      | none =>
        rw [CIDict.del_none lower d hi a hab] at hok
        cases hok
      | some v =>
        obtain ⟨d1, e1, e2, e3⟩ := CIDict.del_some lower d hi a v hab
        rw [e1] at hok ⊢
        refine step d1 e2 ?_ ?_ hok
        · rw [e3]; simp [FoldMap.drop]
        · intro x hx; rw [e3]; simp [FoldMap.drop, Ne.symm hx]
    | cons v vs =>
      simp only [replacing, List.map_cons, localModify, localModify1] at hok ⊢
      refine step _ (CIDict.inv_set lower d a _ hi) ?_ ?_ hok
      · rw [CIDict.abs_set lower d a _ hi]; simp [FoldMap.put]
      · intro x hx; rw [CIDict.abs_set lower d a _ hi]; simp [FoldMap.put, Ne.symm hx]

/-- one `replace_attrs` call against the server, whatever lists are given -/
theorem replace_call (env : ObjEnv V) (e : Entry V) (d : AttrsDict V) (hi : CIDict.Inv lower d) (attrs : List (Str × List V)) (hn : (attrs.map fun kv => lower kv.1).Nodup)
    (hok : (env.modify lower typeOf (answer lower m e) d (replacing attrs)).2.result = .ok ()) :
    let r := env.modify lower typeOf (answer lower m e) d (replacing attrs)
    let e' := serve lower m e r.2.sent
    (∀ kv ∈ attrs, e' (lower kv.1) = if kv.2 = [] ∧ env.opts.ignore = true then e (lower kv.1) else kv.2) ∧ (∀ x, (∀ kv ∈ attrs, lower kv.1 ≠ x) → e' x = e x) ∧
    (∀ kv ∈ attrs, AttrsDict.getAttr lower r.1 kv.1 = kv.2) ∧ (∀ a, (∀ kv ∈ attrs, lower kv.1 ≠ lower a) → AttrsDict.getAttr lower r.1 a = AttrsDict.getAttr lower d a) := by
  have hc : ∀ md ∈ replacing attrs, md.op = .add → md.vals.len ≠ 0 := by
    intro md hmd h
    obtain ⟨kv, _, rfl⟩ := List.mem_map.1 hmd
    cases h
  -- what is sent
  have hsent := sent_changes lower (typeOf := typeOf) env (answer lower m e) d (replacing attrs) hc
  generalize hcs : (replacing attrs).filterMap (wireChange env.opts) = cs at hsent
  have hcsm : ∀ c, c ∈ cs ↔ ∃ kv ∈ attrs, ¬ (kv.2 = [] ∧ env.opts.ignore = true) ∧ c = ⟨.replace, kv.1, kv.2⟩ := by
    intro c
    rw [← hcs, List.mem_filterMap]
    constructor
    · rintro ⟨md, hmd, h⟩
      obtain ⟨kv, hkv, rfl⟩ := List.mem_map.1 hmd
      refine ⟨kv, hkv, ?_⟩
      obtain ⟨a, l⟩ := kv
      cases l with
      | nil =>
        simp only [wireChange] at h
        cases hig : env.opts.ignore <;> rw [hig] at h <;> simp at h
        exact ⟨by simp, h.symm⟩
      | cons v vs =>
        simp only [wireChange, Option.some.injEq] at h
        exact ⟨by simp, h.symm⟩
    · rintro ⟨kv, hkv, h, rfl⟩
      refine ⟨_, List.mem_map.2 ⟨kv, hkv, rfl⟩, ?_⟩
      obtain ⟨a, l⟩ := kv
      cases l with
      | nil =>
        have : env.opts.ignore = false := by
          cases hig : env.opts.ignore
          · rfl
          · exact absurd ⟨rfl, hig⟩ h
        simp [wireChange, this]
      | cons v vs => rfl
  have hcsn : (cs.map fun c => lower c.attr).Nodup := by
    have : (cs.map fun c => lower c.attr).Sublist (attrs.map fun kv => lower kv.1) := by
      rw [← hcs]
      clear hcs hsent hcsm hc hok hn
      induction attrs with
      | nil => simp [replacing]
      | cons kv rest ih =>
        obtain ⟨a, l⟩ := kv
        simp only [replacing, List.map_cons, List.filterMap_cons] at ih ⊢
        cases hw : wireChange env.opts (⟨.replace, a, .list l⟩ : Mod V) with
        | none => exact ih.cons _
        | some c =>
          have : c.attr = a := by
            cases l with
            | nil =>
              simp only [wireChange] at hw
              cases hig : env.opts.ignore <;> rw [hig] at hw <;> simp at hw
              rw [← hw]
            | cons v vs =>
              simp only [wireChange, Option.some.injEq] at hw
              rw [← hw]
          simp only [List.map_cons, this]
          exact ih.cons_cons _
    exact this.nodup hn
  have hcsr : ∀ c ∈ cs, c.op = .replace := fun c hc => by obtain ⟨kv, _, _, rfl⟩ := (hcsm c).1 hc; rfl
  -- how it went
  have key : ∀ (sent : List (ModRequest V)), ((sent = [] ∧ cs = []) ∨ ∃ dn, sent = [⟨dn, cs⟩] ∧ answer lower m e ⟨dn, cs⟩ = .ok ()) →
      (∀ kv ∈ attrs, serve lower m e sent (lower kv.1) = if kv.2 = [] ∧ env.opts.ignore = true then e (lower kv.1) else kv.2) ∧
      (∀ x, (∀ kv ∈ attrs, lower kv.1 ≠ x) → serve lower m e sent x = e x) := by
    have eff : ∀ e', srvModify lower m e cs = .ok e' → (∀ kv ∈ attrs, e' (lower kv.1) = if kv.2 = [] ∧ env.opts.ignore = true then e (lower kv.1) else kv.2) ∧
        (∀ x, (∀ kv ∈ attrs, lower kv.1 ≠ x) → e' x = e x) := by
      intro e' he'
      obtain ⟨f1, f2⟩ := replaces_effect lower cs hcsr hcsn e e' he'
      refine ⟨fun kv hkv => ?_, fun x hx => f2 x (fun c hc => ?_)⟩
      · by_cases hd : kv.2 = [] ∧ env.opts.ignore = true
        · rw [if_pos hd]
          refine f2 _ (fun c hc heq => ?_)
          obtain ⟨kv', hkv', hd', rfl⟩ := (hcsm c).1 hc
          have : kv' = kv := by
            have hp := List.pairwise_map.1 hn
            rcases List.getElem_of_mem hkv with ⟨i, hi, rfl⟩
            rcases List.getElem_of_mem hkv' with ⟨j, hj, rfl⟩
            rcases Nat.lt_trichotomy i j with hlt | rfl | hlt
            · exact absurd heq.symm (List.pairwise_iff_getElem.1 hp i j hi hj hlt)
            · rfl
            · exact absurd heq (List.pairwise_iff_getElem.1 hp j i hj hi hlt)
          exact hd' (this ▸ hd)
        · rw [if_neg hd]
          exact f1 ⟨.replace, kv.1, kv.2⟩ ((hcsm _).2 ⟨kv, hkv, hd, rfl⟩)
      · obtain ⟨kv, hkv, _, rfl⟩ := (hcsm c).1 hc
        exact hx kv hkv
    rintro sent (⟨rfl, hnil⟩ | ⟨dn, rfl, ha⟩)
    · exact eff e (by rw [hnil]; rfl)
    · simp only [answer] at ha
      cases hs : srvModify lower m e cs with
      | error x => rw [hs] at ha; cases ha
      | ok e' =>
        simp only [serve, hs]
        exact eff e' hs
  simp only [ObjEnv.modify, objModify] at hok ⊢
  have hl : ∀ r : ModifyOut V, r = ldapModify env.unbound env.validators env.opts env.ctrls (answer lower m e) env.dn (replacing attrs) (some d) → r.result = .ok () →
      r.mods = replacing attrs ∧ ((r.sent = [] ∧ cs = []) ∨ ∃ dn, r.sent = [⟨dn, cs⟩] ∧ answer lower m e ⟨dn, cs⟩ = .ok ()) := by
    intro r hr hres
    by_cases hlen : (replacing attrs).length > 0
    · rw [ldapModify, if_pos hlen] at hr
      cases hu : env.unbound with
      | true => rw [hu, if_pos rfl] at hr; subst hr; cases hres
      | false =>
        rw [hu, if_neg (by simp)] at hr
        cases hv : runValidation env.validators (env.dn, replacing attrs, some d) with
        | error x => rw [hv] at hr; subst hr; cases hres
        | ok _ =>
          rw [hv] at hr
          by_cases he : env.opts.error = true ∧ ∃ md ∈ replacing attrs, md.vals = .list []
          · have hb := buildChanges_err env.opts (replacing attrs) hc he
            simp only [hb] at hr
            subst hr
            cases hres
          · obtain ⟨hb1, hb2⟩ := buildChanges_ok env.opts (replacing attrs) hc he
            have hb2 : (buildChanges env.opts (replacing attrs)).1 = replacing attrs := by rw [hb2]; simp [replacing, List.map_map, Function.comp_def]
            rw [hcs] at hb1
            simp only [hb1, hb2] at hr
            by_cases hcl : cs.length > 0
            · rw [if_pos hcl] at hr
              cases hct : env.ctrls with
              | error x => rw [hct] at hr; subst hr; cases hres
              | ok _ =>
                rw [hct] at hr
                subst hr
                exact ⟨rfl, .inr ⟨env.dn, rfl, hres⟩⟩
            · rw [if_neg hcl] at hr
              subst hr
              exact ⟨rfl, .inl ⟨rfl, List.length_eq_zero_iff.1 (by omega)⟩⟩
    · rw [ldapModify, if_neg hlen] at hr
      subst hr
      refine ⟨rfl, .inl ⟨rfl, ?_⟩⟩
      rw [← hcs, List.length_eq_zero_iff.1 (by omega : (replacing attrs).length = 0)]
      rfl
  generalize hR : ldapModify env.unbound env.validators env.opts env.ctrls (answer lower m e) env.dn (replacing attrs) (some d) = R at hok hl
  have hl := hl R rfl
  cases hres : R.result with
  | error x => rw [hres] at hok; dsimp only at hok; rw [hres] at hok; cases hok
  | ok u =>
    rw [hres] at hok
    obtain ⟨hm, hs⟩ := hl hres
    dsimp only at hok ⊢
    rw [hm] at hok ⊢
    obtain ⟨k1, k2, k3⟩ := local_replaces lower attrs hn d hi hok
    obtain ⟨q1, q2⟩ := key R.sent hs
    exact ⟨q1, q2, k2, fun a ha => by rw [getAttr_abs lower _ k1, getAttr_abs lower _ hi, k3 _ ha]⟩

/-- **C54 (replace).** After a successful `add_or_mod_replace_if_exists` each attribute for which values were given has exactly these, and the object returned shows them; all others are as before. An empty list
clears the attribute, unless the connection ignores empty lists: then the entry keeps it (and the object does not show it). -/
theorem c54_replace (w : Option (Entry V)) (getAll : Except Err (PDict Str (List V))) (hget : Reads lower w getAll)
    (env : ObjEnv V) (vs : List ((Str × AttrsDict V) → Except Err Unit)) (attrs : List (Str × List V)) (hnames : (attrs.map fun kv => lower kv.1).Nodup) (d : AttrsDict V) :
    let add := ldapAdd lower env.unbound vs env.ctrls (dirAddAnswer lower m w) env.dn attrs
    let o := addOrModReplace lower typeOf env getAll (dirModAnswer lower m w) add attrs
    o.result = .ok d →
      ∃ e', o.after lower m w = some e' ∧
        (∀ kv ∈ attrs, e' (lower kv.1) = if kv.2 = [] ∧ env.opts.ignore = true then (w.getD fun _ => []) (lower kv.1) else kv.2) ∧
        (∀ x, (∀ kv ∈ attrs, lower kv.1 ≠ x) → e' x = (w.getD fun _ => []) x) ∧
        (∀ kv ∈ attrs, AttrsDict.getAttr lower d kv.1 = kv.2) ∧
        (∀ a, AttrsDict.getAttr lower d a ≠ [] → AttrsDict.getAttr lower d a = e' (lower a)) := by
  intro add o ho
  cases w with
  | none =>
    have hgn := hget.missing rfl
    simp only [o, addOrModReplace, getThen, hgn, orAdd] at ho ⊢
    obtain ⟨e', h1, h2, h3, h4⟩ := (add_missing lower env.unbound vs env.ctrls env.dn attrs hnames).1 d ho
    refine ⟨e', by simpa [PatOut.after, dirMods] using h1, fun kv hkv => ?_, fun x hx => by simpa using h3 x hx, fun kv hkv => by rw [h4, h2 kv hkv], fun a _ => h4 a⟩
    rw [h2 kv hkv]
    by_cases h : kv.2 = [] ∧ env.opts.ignore = true
    · rw [if_pos h, h.1]; rfl
    · rw [if_neg h]
  | some e =>
    have hno : ∀ d, add.result ≠ .ok d := fun d => add_existing lower e env.unbound vs env.ctrls env.dn attrs d
    simp only [o, addOrModReplace, getThen] at ho ⊢
    cases hga : getAll with
    | error x =>
      rw [hga] at ho
      have := hget.there e rfl
      rw [hga] at this
      cases x <;> simp_all
    | ok got =>
      simp only [hga] at ho ⊢
      have hu := update_abs lower got CIDict.empty (CIDict.inv_empty lower) e (hget.sound e got rfl hga)
      have hml : modlist .replace ((attrs.map fun kv => (kv.1, Vals.list kv.2)).map (fun kv => (kv.1, RawVals.vals kv.2))) = .ok (replacing attrs) := by
        rw [(c07_modlist _ _).2 (by simp)]
        simp [normalise, replacing]
      have hsrv : dirModAnswer lower m (some e) = answer lower m e := rfl
      have hcall := replace_call lower (typeOf := typeOf) (m := m) env e (CIDict.update lower CIDict.empty got) hu.1 attrs hnames
      simp only [ObjEnv.replaceAttrs, hml, hsrv] at ho ⊢
      generalize hR : ObjEnv.modify lower typeOf env (answer lower m e) (CIDict.update lower CIDict.empty got) (replacing attrs) = R at hcall ho ⊢
      cases hres : R.2.result with
      | ok u =>
        simp only [hres] at ho ⊢
        simp at ho
        obtain ⟨q1, q2, q3, q4⟩ := hcall hres
        refine ⟨serve lower m e R.2.sent, by simp [PatOut.after, dirMods_serve, dirAdds], q1, q2, by rw [← ho]; exact q3, ?_⟩
        intro a ha
        rw [← ho] at ha ⊢
        by_cases hin : ∃ kv ∈ attrs, lower kv.1 = lower a
        · obtain ⟨kv, hkv, hl⟩ := hin
          have hsame : AttrsDict.getAttr lower R.1 a = AttrsDict.getAttr lower R.1 kv.1 := by
            simp only [AttrsDict.getAttr, CIDict.get, CIDict.getItem, hl]
          rw [hsame, q3 kv hkv] at ha ⊢
          rw [← hl, q1 kv hkv, if_neg (fun h => ha h.1)]
        · have hin : ∀ kv ∈ attrs, lower kv.1 ≠ lower a := fun kv hkv h => hin ⟨kv, hkv, h⟩
          rw [q4 a hin] at ha ⊢
          rw [q2 _ hin]
          rw [getAttr_abs lower _ hu.1] at ha ⊢
          by_cases hg : ∃ kv ∈ got, lower kv.1 = lower a
          · rw [(hu.2 _).1 hg]; rfl
          · rw [(hu.2 _).2 hg, CIDict.abs_empty] at ha
            exact absurd rfl ha
      | error x =>
        simp only [hres] at ho
        cases x <;> simp [orAdd] at ho
        exact absurd ho (hno d)

/-- **C54 (add if not exists).** An existing entry is left untouched, and nothing is sent; a missing one is created with exactly the requested attributes. -/
theorem c54_if_not_exists (w : Option (Entry V)) (getAll : Except Err (PDict Str (List V))) (hget : Reads lower w getAll)
    (unbound : Bool) (ctrls : Except Err Unit) (dn : Str) (vs : List ((Str × AttrsDict V) → Except Err Unit)) (attrs : List (Str × List V))
    (hnames : (attrs.map fun kv => lower kv.1).Nodup) :
    let o := addIfNotExists lower getAll (ldapAdd lower unbound vs ctrls (dirAddAnswer lower m w) dn attrs)
    (∀ e, w = some e → o.mods = [] ∧ o.adds = [] ∧ o.after lower m w = some e) ∧
    (∀ d, w = none → o.result = .ok d → ∃ e', o.after lower m w = some e' ∧ (∀ kv ∈ attrs, e' (lower kv.1) = kv.2) ∧
      (∀ x, (∀ kv ∈ attrs, lower kv.1 ≠ x) → e' x = []) ∧ ∀ a, AttrsDict.getAttr lower d a = e' (lower a)) := by
  intro o
  refine ⟨?_, ?_⟩
  · rintro e rfl
    have := hget.there e rfl
    simp only [o, addIfNotExists]
    cases hga : getAll with
    | ok got => simp [PatOut.after, dirMods, dirAdds]
    | error x =>
      rw [hga] at this
      cases x <;> simp_all [PatOut.after, dirMods, dirAdds]
  · rintro d rfl ho
    simp only [o, addIfNotExists, hget.missing rfl, orAdd] at ho ⊢
    obtain ⟨e', h1, h2, h3, h4⟩ := (add_missing lower unbound vs ctrls dn attrs hnames).1 d ho
    exact ⟨e', by simpa [PatOut.after, dirMods] using h1, h2, h3, h4⟩

end

/-! ### instances -/

/-- an existing entry gains the missing value only; a missing one is created -/
example :
    let add w := ldapAdd lc false [] (.ok ()) (dirAddAnswer lc (fun _ a b => a == b) w) (str "cn=x") [(str "CN", [2, 3])]
    let run w := addOrModAdd lc (fun _ => .ok AttrType.default) (plainEnv ⟨false, true⟩)
      (match w with | none => .error .noResults | some e => read0 e [str "cn"]) (fun a => read0 (w.getD fun _ => []) a)
      (dirModAnswer lc (fun _ a b => a == b) w) (add w) [(str "CN", [2, 3])]
    ((run (some s0.entry)).mods.map (·.changes) = [[⟨.add, str "CN", [3]⟩]] ∧ (run (some s0.entry)).adds = []) ∧
    ((run none).mods = [] ∧ (run none).adds = [⟨str "cn=x", [(str "CN", [2, 3])]⟩]) := by
  decide

/-- a list of values and an empty list, on a connection that ignores empty lists and on one that does not: the value is replaced, and the other attribute kept or cleared -/
example :
    let e : Entry Nat := fun x => if x = str "cn" then [1, 2] else if x = str "sn" then [5] else []
    let run ig := addOrModReplace lc (fun _ => .ok AttrType.default) (plainEnv ⟨false, ig⟩) (read0 e [str "cn", str "sn"])
      (dirModAnswer lc (fun _ a b => a == b) (some e)) (ldapAdd lc false [] (.ok ()) (dirAddAnswer lc (fun _ a b => a == b) (some e)) (str "cn=x") [(str "CN", [3]), (str "sn", [])]) [(str "CN", [3]), (str "sn", [])]
    ((run true).mods.map (·.changes) = [[⟨.replace, str "CN", [3]⟩]] ∧ (run true).result.isOk = true) ∧
    ((run false).mods.map (·.changes) = [[⟨.replace, str "CN", [3]⟩, ⟨.replace, str "sn", []⟩]] ∧ (run false).result.isOk = true) ∧
    Reads lc (some e) (read0 e [str "cn", str "sn"]) := by
  refine ⟨by decide, by decide, nofun, fun _ _ => by decide, fun e' got he' hg => ?_⟩
  cases he'
  exact (read0_ok _ _ _ hg).1

end Laurelin.Props
