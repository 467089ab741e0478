import Verif.Lemmas.Mirror
import Verif.Props.Modlists
/-!
Properties C10, C11, C12: what the local object shows is what the server has.

A `Session` is a client object together with the server's entry; the server follows `Spec/Server.lean` (RFC 4511).
The client may know only part of the entry (it fetched some attributes): `View`.
-/
set_option linter.unusedSectionVars false
namespace Laurelin.Props
open Laurelin Spec
variable {V : Type} [DecidableEq V]

section defs
variable (lower : Str → Str) (typeOf : TypeOf V) (m : Str → V → V → Bool)

/-- a client object together with the server's entry for the same DN -/
structure Session (V : Type) where
  obj : AttrsDict V
  entry : Entry V

/-- the RFC 4511 server's answer to a modify request for this entry -/
def answer (e : Entry V) (rq : ModRequest V) : Except Err Unit :=
  match srvModify lower m e rq.changes with
  | .ok _ => .ok ()
  | .error _ => .error .ldapError

/-- the server's entry after processing the requests it received (rejected requests change nothing) -/
def serve (e : Entry V) : List (ModRequest V) → Entry V
  | [] => e
  | rq :: rqs => match srvModify lower m e rq.changes with
    | .ok e' => serve e' rqs
    | .error _ => serve e rqs

/-- the calls a user makes on an object -/
inductive ObjCall (V : Type) where
  | modify (mods : List (Mod V))
  | addAttrs (new : List (Str × List V))
  | replaceAttrs (new : List (Str × Vals V))
  | deleteAttrs (del : List (Str × Vals V))
  | refresh (attrs : List Str)

/-- one call against the server; `read` is how the server answers reads -/
def Session.call (read : Entry V → List Str → Except Err (PDict Str (List V))) (s : Session V) (env : ObjEnv V) :
    ObjCall V → Session V × Except Err Unit
  | .modify mods =>
    let r := env.modify lower typeOf (answer lower m s.entry) s.obj mods
    (⟨r.1, serve lower m s.entry r.2.sent⟩, r.2.result)
  | .addAttrs new =>
    let r := env.addAttrs lower typeOf (read s.entry) (answer lower m s.entry) s.obj (new.map (fun kv => (kv.1, .list kv.2)))
    (⟨r.1, serve lower m s.entry r.2.sent⟩, r.2.result)
  | .replaceAttrs new =>
    let r := env.replaceAttrs lower typeOf (answer lower m s.entry) s.obj new
    (⟨r.1, serve lower m s.entry r.2.sent⟩, r.2.result)
  | .deleteAttrs del =>
    let r := env.deleteAttrs lower typeOf (read s.entry) (answer lower m s.entry) s.obj del
    (⟨r.1, serve lower m s.entry r.2.sent⟩, r.2.result)
  | .refresh attrs =>
    match refresh lower (read s.entry) s.obj attrs with
    | .ok d => (⟨d, s.entry⟩, .ok ())
    | .error e => (s, .error e)

/-- the object shows exactly the server's values of this attribute -/
def Agrees (s : Session V) (attr : Str) : Prop := AttrsDict.getAttr lower s.obj attr = s.entry (lower attr)

/-- everything the object shows is what the server has (attributes not fetched yet are shown as absent) -/
structure View (G : Str → V → Prop) (s : Session V) : Prop where
  inv : CIDict.Inv lower s.obj
  good : GoodEntry lower G s.entry
  view : ∀ attr, AttrsDict.getAttr lower s.obj attr ≠ [] → Agrees lower s attr

/-- clearing an attribute by an empty REPLACE only happens while the attribute has values -/
def ClearsPresent (e : Entry V) : List (Change V) → Prop
  | [] => True
  | c :: cs => (c.op = .replace → c.vals = [] → e (lower c.attr) ≠ []) ∧
      ∀ e', srvChange lower m e c = .ok e' → ClearsPresent e' cs

def valsList : Vals V → List V
  | .deleteAll => []
  | .list l => l

/-- the request the caller means -/
def meant (mods : List (Mod V)) : List (Change V) := mods.map (fun md => ⟨md.op, md.attr, valsList md.vals⟩)

/-- the modify calls for which the mirror property holds: Mods as the constructor allows, acceptable values, no
literally empty list when such lists are silently ignored, no clearing of an attribute that is absent, and only
attributes that are known (or wholly replaced) -/
structure Clean (G : Str → V → Prop) (s : Session V) (o : EmptyOpts) (mods : List (Mod V)) : Prop where
  constructible : ∀ md ∈ mods, md.op = .add → md.vals.len ≠ 0
  good : ∀ md ∈ mods, ∀ v ∈ valsList md.vals, G md.attr v
  noIgnored : o.ignore = true → ∀ md ∈ mods, md.vals ≠ .list []
  present : ClearsPresent lower m s.entry (meant mods)
  known : ∀ md ∈ mods, Agrees lower s md.attr ∨ (md.op = .replace ∧ valsList md.vals ≠ [])

/-- clean calls -/
def CleanCall (G : Str → V → Prop) (s : Session V) (env : ObjEnv V) : ObjCall V → Prop
  | .modify mods => Clean lower m G s env.opts mods
  | .addAttrs new => (new.map Prod.fst).Nodup ∧ (∀ a ∈ new.map Prod.fst, ∃ t, typeOf a = .ok t) ∧
      (∀ kv ∈ new, ∀ v ∈ kv.2, G kv.1 v) ∧ (env.strict = true → ∀ kv ∈ new, Agrees lower s kv.1)
  | .replaceAttrs new => Clean lower m G s env.opts (new.map (fun kv => ⟨.replace, kv.1, kv.2⟩))
  | .deleteAttrs del => (del.map Prod.fst).Nodup ∧ (∀ a ∈ del.map Prod.fst, ∃ t, typeOf a = .ok t) ∧
      (∀ kv ∈ del, ∀ v ∈ valsList kv.2, G kv.1 v) ∧ (env.strict = true → ∀ kv ∈ del, Agrees lower s kv.1) ∧
      (env.opts.ignore = true → ∀ kv ∈ del, kv.2 ≠ .list [])
  | .refresh _ => True

/-- the state after a history of calls -/
def Session.after (read : Entry V → List Str → Except Err (PDict Str (List V))) (s : Session V) :
    List (ObjEnv V × ObjCall V) → Session V
  | [] => s
  | (env, c) :: rest => Session.after read (s.call lower typeOf m read env c).1 rest

/-- every call of the history is clean at the moment it is made -/
def CleanHistory (G : Str → V → Prop) (read : Entry V → List Str → Except Err (PDict Str (List V))) (s : Session V) :
    List (ObjEnv V × ObjCall V) → Prop
  | [] => True
  | (env, c) :: rest => CleanCall lower typeOf m G s env c ∧
      CleanHistory G read (s.call lower typeOf m read env c).1 rest

end defs

/-- what in-place rewriting of `DELETE_ALL` leaves -/
def settle (md : Mod V) : Mod V := match md.vals with
  | .deleteAll => { md with vals := .list [] }
  | _ => md

theorem meant_settle (mods : List (Mod V)) : meant (mods.map settle) = meant mods := by
  simp only [meant, List.map_map]
  apply List.map_congr_left
  intro md _
  obtain ⟨op, a, v⟩ := md
  cases v <;> rfl

theorem wire_meant (o : EmptyOpts) (mods : List (Mod V)) (h : o.ignore = true → ∀ md ∈ mods, md.vals ≠ .list []) :
    mods.filterMap (wireChange o) = meant mods := by
  rw [meant, ← List.filterMap_eq_map]
  apply filterMap_congr'
  intro md hmd
  obtain ⟨op, a, v⟩ := md
  cases v with
  | deleteAll => rfl
  | list l =>
    cases l with
    | nil =>
      by_cases ho : o.ignore = true
      · exact absurd rfl (h ho _ hmd)
      · simp [wireChange, ho, valsList]
    | cons => rfl

section
variable (lower : Str → Str) {typeOf : TypeOf V} {m : Str → V → V → Bool} {G : Str → V → Prop}

theorem localModify_sim {P : Str → Prop} (hD : Decides typeOf m G) (hf : FoldCompat lower m G) (mods : List (Mod V))
    (d : AttrsDict V) (e e' : Entry V) (h : CIDict.Inv lower d) (hs : SyncOn P d e) (hg : GoodEntry lower G e)
    (hP : ∀ md ∈ mods, P (lower md.attr) ∨ (md.op = .replace ∧ valsList md.vals ≠ []))
    (hl : ∀ md ∈ mods, ∃ l, md.vals = .list l)
    (hc : ∀ md ∈ mods, md.op = .add → md.vals.len ≠ 0)
    (hgv : ∀ md ∈ mods, ∀ v ∈ valsList md.vals, G md.attr v)
    (hp : ClearsPresent lower m e (meant mods))
    (hsrv : srvModify lower m e (meant mods) = .ok e') :
    ∃ d', localModify lower typeOf d mods = (d', .ok ()) ∧ CIDict.Inv lower d' ∧
      SyncOn (fun x => P x ∨ ∃ md ∈ mods, x = lower md.attr) d' e' ∧ GoodEntry lower G e' := by
  induction mods generalizing d e P with
  | nil =>
    simp only [meant, List.map_nil, srvModify, Except.ok.injEq] at hsrv
    subst hsrv
    exact ⟨d, rfl, h, fun x hx => hs x (by simpa using hx), hg⟩
  | cons md rest ih =>
    obtain ⟨l, hmd⟩ := hl md (by simp)
    simp only [meant, List.map_cons, srvModify] at hsrv
    simp only [meant, List.map_cons, ClearsPresent] at hp
    have hP0 := hP md (by simp)
    rw [hmd] at hsrv hp hP0
    simp only [valsList] at hsrv hp hP0
    split at hsrv
    · rename_i e1 he1
      obtain ⟨d1, h1, h2, h3, h4⟩ := localModify1_sim lower hD hf d e e1 h hs hg md l hP0 (Or.inl hmd)
        (by have := hgv md (by simp); rw [hmd] at this; exact this)
        (by intro ho hn; have := hc md (by simp) ho; rw [hmd, hn] at this; simp [Vals.len] at this)
        hp.1 he1
      obtain ⟨d', h5, h6, h7, h8⟩ := ih d1 e1 h2 h3 h4
        (fun x hx => (hP x (by simp [hx])).imp Or.inl id) (fun x hx => hl x (by simp [hx])) (fun x hx => hc x (by simp [hx]))
        (fun x hx => hgv x (by simp [hx])) (hp.2 e1 he1) hsrv
      refine ⟨d', ?_, h6, ?_, h8⟩
      · simp only [localModify, h1]
        exact h5
      · intro x hx
        apply h7
        rcases hx with hx | ⟨y, hy, rfl⟩
        · exact Or.inl (Or.inl hx)
        · rcases List.mem_cons.1 hy with rfl | hy
          · exact Or.inl (Or.inr rfl)
          · exact Or.inr ⟨y, hy, rfl⟩
    · simp at hsrv

/-- **C11.** If `obj.modify` does not get as far as a server acceptance – unbound connection, validation error, empty-list
error, control error, or a rejection by the server – the object is unchanged and so is the server's entry. -/
theorem c11_failed_modify_unchanged (typeOf : TypeOf V) (m : Str → V → V → Bool)
    (read : Entry V → List Str → Except Err (PDict Str (List V))) (s : Session V) (env : ObjEnv V)
    (mods : List (Mod V)) (e : Err)
    (hfail : (ldapModify env.unbound env.validators env.opts env.ctrls (answer lower m s.entry) env.dn mods (some s.obj)).result
      = .error e) :
    s.call lower typeOf m read env (.modify mods) = (s, .error e) := by
  have hs := c08_at_most_once env.unbound env.validators env.opts env.ctrls (answer lower m s.entry) env.dn mods (some s.obj)
  simp only [Session.call, ObjEnv.modify, objModify, hfail]
  rcases hs with hs | ⟨cs, hs, _, hr, _⟩
  · simp [hs, serve]
  · rw [hfail] at hr
    simp only [hs, serve]
    simp only [answer] at hr
    split at hr
    · simp at hr
    · rfl

theorem agrees_iff (s : Session V) (h : CIDict.Inv lower s.obj) (attr : Str) :
    Agrees lower s attr ↔ (CIDict.abs s.obj (lower attr)).getD [] = s.entry (lower attr) := by
  rw [Agrees, getAttr_abs lower _ h]

/-- **C10 (one `modify` call).** A clean `obj.modify` keeps the object's view equal to the server's entry whatever the
outcome; attributes that agreed with the server still do; if the call succeeds the server has applied exactly the
requested changes and every attribute mentioned agrees; if it fails nothing has changed; and it succeeds as soon as the
request was accepted (the local update never raises). -/
theorem c10_modify_step (hD : Decides typeOf m G) (hf : FoldCompat lower m G)
    (read : Entry V → List Str → Except Err (PDict Str (List V))) (s : Session V) (hm : View lower G s)
    (env : ObjEnv V) (mods : List (Mod V)) (hc : Clean lower m G s env.opts mods) :
    let r := s.call lower typeOf m read env (.modify mods)
    View lower G r.1 ∧ (∀ attr, Agrees lower s attr → Agrees lower r.1 attr) ∧
    (r.2 = .ok () → srvModify lower m s.entry (meant mods) = .ok r.1.entry ∧
      ∀ md ∈ mods, Agrees lower r.1 md.attr) ∧
    (∀ e, r.2 = .error e → r.1 = s) ∧
    ((ldapModify env.unbound env.validators env.opts env.ctrls (answer lower m s.entry) env.dn mods (some s.obj)).result = .ok () →
      r.2 = .ok ()) := by
  intro r
  cases hres : (ldapModify env.unbound env.validators env.opts env.ctrls (answer lower m s.entry) env.dn mods (some s.obj)).result with
  | error e =>
    have := c11_failed_modify_unchanged lower typeOf m read s env mods e hres
    simp only [r, this]
    exact ⟨hm, fun _ h => h, by simp, by simp, by simp⟩
  | ok u =>
    -- the accepted case
    have hkey : ∃ e', srvModify lower m s.entry (meant mods) = .ok e' ∧
        serve lower m s.entry (ldapModify env.unbound env.validators env.opts env.ctrls (answer lower m s.entry) env.dn mods (some s.obj)).sent = e' ∧
        (ldapModify env.unbound env.validators env.opts env.ctrls (answer lower m s.entry) env.dn mods (some s.obj)).mods = mods.map settle := by
      cases mods with
      | nil => exact ⟨s.entry, rfl, rfl, rfl⟩
      | cons md rest =>
        simp only [ldapModify, List.length_cons, gt_iff_lt, Nat.zero_lt_succ, if_true] at hres ⊢
        split at hres
        · simp at hres
        · rename_i hu
          rw [if_neg hu]
          split at hres
          · simp at hres
          · rename_i hv
            by_cases he : env.opts.error = true ∧ ∃ x ∈ md :: rest, x.vals = .list []
            · rw [buildChanges_err _ _ hc.constructible he] at hres
              simp at hres
            · have hb := buildChanges_ok env.opts (md :: rest) hc.constructible he
              rw [wire_meant _ _ hc.noIgnored] at hb
              rw [hb.1] at hres ⊢
              rw [hb.2]
              have hlen : 0 < (meant (md :: rest)).length := by simp [meant]
              simp only [hlen, if_true] at hres ⊢
              split at hres
              · simp at hres
              · rename_i hct
                simp only [answer] at hres ⊢
                split at hres
                · rename_i e' he'
                  refine ⟨e', he', ?_, ?_⟩
                  · simp only [serve, he']
                  · apply List.map_congr_left
                    intro md _
                    obtain ⟨op, a, v⟩ := md
                    cases v <;> rfl
                · simp at hres
    obtain ⟨e', h1, h2, h3⟩ := hkey
    have hsettle : ∀ md ∈ mods.map settle, ∃ x ∈ mods, md = settle x ∧ md.op = x.op ∧ md.attr = x.attr ∧
        valsList md.vals = valsList x.vals ∧ md.vals.len = x.vals.len := by
      intro md hmd
      obtain ⟨x, hx, rfl⟩ := List.mem_map.1 hmd
      refine ⟨x, hx, rfl, ?_⟩
      obtain ⟨op, a, v⟩ := x
      cases v <;> exact ⟨rfl, rfl, rfl, rfl⟩
    obtain ⟨d', h4, h5, h6, h7⟩ := localModify_sim (P := fun x => (CIDict.abs s.obj x).getD [] = s.entry x)
      lower hD hf (mods.map settle) s.obj s.entry e' hm.inv (fun x hx => hx) hm.good
      (by
        intro md hmd
        obtain ⟨x, hx, _, ho, ha, hv, _⟩ := hsettle md hmd
        rw [ho, ha, hv]
        exact (hc.known x hx).imp (fun h => (agrees_iff lower s hm.inv _).1 h) id)
      (by
        intro md hmd
        obtain ⟨x, _, rfl⟩ := List.mem_map.1 hmd
        obtain ⟨op, a, v⟩ := x
        cases v with
        | deleteAll => exact ⟨[], rfl⟩
        | list l => exact ⟨l, rfl⟩)
      (by
        intro md hmd
        obtain ⟨x, hx, _, ho, ha, hv, hl⟩ := hsettle md hmd
        rw [ho, hl]; exact hc.constructible x hx)
      (by
        intro md hmd
        obtain ⟨x, hx, _, ho, ha, hv, hl⟩ := hsettle md hmd
        rw [ha, hv]; exact hc.good x hx)
      (by rw [meant_settle]; exact hc.present)
      (by rw [meant_settle]; exact h1)
    have hfr := (localModify_frame lower typeOf (mods.map settle) s.obj hm.inv).2
    rw [h4] at hfr
    have hr : r = (⟨d', e'⟩, .ok ()) := by
      simp only [r, Session.call, ObjEnv.modify, objModify, hres, h3, h4, h2]
    rw [hr]
    have htouch : ∀ x, (∃ md ∈ mods, x = lower md.attr) → (CIDict.abs d' x).getD [] = e' x := by
      rintro x ⟨md, hmd, rfl⟩
      apply h6
      refine Or.inr ⟨settle md, List.mem_map_of_mem hmd, ?_⟩
      obtain ⟨op, a, v⟩ := md
      cases v <;> rfl
    refine ⟨⟨h5, h7, ?_⟩, ?_, fun _ => ⟨h1, ?_⟩, by simp, fun _ => rfl⟩
    · intro attr hne
      rw [agrees_iff lower _ h5]
      rw [getAttr_abs lower _ h5] at hne
      simp only at hne ⊢
      by_cases ht : ∃ md ∈ mods, lower attr = lower md.attr
      · exact htouch _ ht
      · have hun : ∀ md ∈ mods.map settle, lower attr ≠ lower md.attr := by
          intro md hmd heq
          obtain ⟨x, hx, _, _, ha, _⟩ := hsettle md hmd
          exact ht ⟨x, hx, by rw [← ha]; exact heq⟩
        have hsame := hfr (lower attr) hun
        simp only at hsame
        rw [hsame] at hne
        apply h6
        left
        have := hm.view attr (by rw [getAttr_abs lower _ hm.inv]; exact hne)
        exact (agrees_iff lower s hm.inv attr).1 this
    · intro attr ha
      rw [agrees_iff lower _ h5]
      exact h6 _ (Or.inl ((agrees_iff lower s hm.inv attr).1 ha))
    · intro md hmd
      rw [agrees_iff lower _ h5]
      exact htouch _ ⟨md, hmd, rfl⟩

/-- reading attributes from the server keeps the view right and makes the requested attributes known -/
theorem c10_refresh_step (s : Session V) (hm : View lower G s) (attrs : List Str)
    (got : PDict Str (List V)) (hgot : FetchOf lower s.entry attrs got) :
    let s' : Session V := ⟨CIDict.update lower s.obj got, s.entry⟩
    View lower G s' ∧ (∀ attr, Agrees lower s attr → Agrees lower s' attr) ∧
    ∀ a ∈ attrs, AttrsDict.getAttr lower s.obj a = [] → Agrees lower s' a := by
  intro s'
  have hu := update_abs lower got s.obj hm.inv s.entry (fun kv hkv => hgot.sound kv hkv)
  have hx : ∀ attr, Agrees lower s attr → Agrees lower s' attr := by
    intro attr ha
    rw [agrees_iff lower _ hu.1]
    by_cases hex : ∃ kv ∈ got, lower kv.1 = lower attr
    · rw [(hu.2 _).1 hex]; rfl
    · rw [(hu.2 _).2 hex]; exact (agrees_iff lower s hm.inv attr).1 ha
  refine ⟨⟨hu.1, hm.good, ?_⟩, hx, ?_⟩
  · intro attr hne
    by_cases hex : ∃ kv ∈ got, lower kv.1 = lower attr
    · rw [agrees_iff lower _ hu.1, (hu.2 _).1 hex]; rfl
    · rw [getAttr_abs lower _ hu.1, (hu.2 _).2 hex] at hne
      exact hx attr (hm.view attr (by rw [getAttr_abs lower _ hm.inv]; exact hne))
  · intro a ha hnil
    rw [agrees_iff lower _ hu.1]
    by_cases hex : ∃ kv ∈ got, lower kv.1 = lower a
    · rw [(hu.2 _).1 hex]; rfl
    · rw [(hu.2 _).2 hex, ← getAttr_abs lower _ hm.inv, hnil]
      show [] = s.entry (lower a)
      by_cases he : s.entry (lower a) = []
      · exact he.symm
      · exact absurd (hgot.complete a ha he) hex

/-- `refresh_missing` -/
theorem refreshMissing_step (s : Session V) (hm : View lower G s) (attrs : List Str)
    (read : Entry V → List Str → Except Err (PDict Str (List V)))
    (hread : ∀ e attrs got, read e attrs = .ok got → FetchOf lower e attrs got) (d1 : AttrsDict V)
    (h : refreshMissing lower (read s.entry) s.obj attrs = .ok d1) :
    View lower G ⟨d1, s.entry⟩ ∧ (∀ attr, Agrees lower s attr → Agrees lower ⟨d1, s.entry⟩ attr) ∧
    ∀ a ∈ attrs, Agrees lower ⟨d1, s.entry⟩ a := by
  simp only [refreshMissing] at h
  split at h
  · rename_i hlen
    simp only [refresh] at h
    split at h
    · simp at h
    · rename_i got hgot
      simp only [Except.ok.injEq] at h
      subst h
      obtain ⟨h1, h2, h3⟩ := c10_refresh_step lower s hm _ got (hread _ _ _ hgot)
      refine ⟨h1, h2, fun a ha => ?_⟩
      by_cases hh : AttrsDict.has lower s.obj a = true
      · exact h2 a (hm.view a ((AttrsDict.has_iff lower s.obj a).1 hh))
      · exact h3 a (List.mem_filter.2 ⟨ha, by simpa using hh⟩) ((AttrsDict.has_false_iff lower s.obj a).1 (by simpa using hh))
  · rename_i hlen
    simp only [Except.ok.injEq] at h
    subst h
    refine ⟨hm, fun _ h => h, fun a ha => ?_⟩
    have hnil : attrs.filter (fun a => !AttrsDict.has lower s.obj a) = [] := by
      apply List.length_eq_zero_iff.1; omega
    have := List.filter_eq_nil_iff.1 hnil a ha
    exact hm.view a ((AttrsDict.has_iff lower s.obj a).1 (by simpa using this))

theorem view_good {s : Session V} (hm : View lower G s) : GoodAttrs lower G s.obj := by
  intro attr x hx
  have : AttrsDict.getAttr lower s.obj attr ≠ [] := by intro h; rw [h] at hx; simp at hx
  have := hm.view attr this
  rw [Agrees] at this
  rw [this] at hx
  exact hm.good attr x hx

/-- no REPLACE in the request: nothing is "cleared" -/
theorem clearsPresent_noReplace (cs : List (Change V)) (h : ∀ c ∈ cs, c.op ≠ .replace) (e : Entry V) :
    ClearsPresent lower m e cs := by
  induction cs generalizing e with
  | nil => trivial
  | cons c cs ih =>
    exact ⟨fun ho => absurd ho (h c (by simp)), fun e' _ => ih (fun c hc => h c (by simp [hc])) e'⟩

theorem clean_addWanted (s : Session V) (o : EmptyOpts) (new : List (Str × List V))
    (hv : ∀ kv ∈ new, ∀ v ∈ kv.2, G kv.1 v) (hk : ∀ kv ∈ new, Agrees lower s kv.1) :
    Clean lower m G s o (addWanted lower m s.obj new) := by
  have hmem : ∀ md ∈ addWanted lower m s.obj new, ∃ kv ∈ new, ∃ u, md = ⟨.add, kv.1, .list u⟩ ∧ u ≠ [] ∧ ∀ v ∈ u, v ∈ kv.2 := by
    intro md hmd
    simp only [addWanted, List.mem_filterMap] at hmd
    obtain ⟨kv, hkv, he⟩ := hmd
    split at he
    · simp at he
    · rename_i hu
      simp only [Option.some.injEq] at he
      exact ⟨kv, hkv, _, he.symm, hu, fun v hv => (List.mem_filter.1 hv).1⟩
  refine ⟨?_, ?_, ?_, ?_, ?_⟩
  · intro md hmd _
    obtain ⟨kv, _, u, rfl, hu, _⟩ := hmem md hmd
    simpa [Vals.len] using hu
  · intro md hmd v hvm
    obtain ⟨kv, hkv, u, rfl, _, hsub⟩ := hmem md hmd
    exact hv kv hkv v (hsub v hvm)
  · intro _ md hmd
    obtain ⟨kv, hkv, u, rfl, hu, hsub⟩ := hmem md hmd
    simpa using hu
  · apply clearsPresent_noReplace
    intro c hc
    obtain ⟨md, hmd, rfl⟩ := List.mem_map.1 hc
    obtain ⟨kv, hkv, u, rfl, _⟩ := hmem md hmd
    simp
  · intro md hmd
    obtain ⟨kv, hkv, u, rfl, _⟩ := hmem md hmd
    exact Or.inl (hk kv hkv)

theorem clean_delWanted (s : Session V) (o : EmptyOpts) (del : List (Str × Vals V))
    (hv : ∀ kv ∈ del, ∀ v ∈ valsList kv.2, G kv.1 v) (hk : ∀ kv ∈ del, Agrees lower s kv.1)
    (hi : o.ignore = true → ∀ kv ∈ del, kv.2 ≠ .list []) :
    Clean lower m G s o (delWanted lower m s.obj del) := by
  have hmem : ∀ md ∈ delWanted lower m s.obj del, ∃ kv ∈ del, ∃ u, md = ⟨.delete, kv.1, u⟩ ∧
      (∀ v ∈ valsList u, v ∈ valsList kv.2) ∧ (u = .list [] → kv.2 = .list []) := by
    intro md hmd
    simp only [delWanted, List.mem_filterMap] at hmd
    obtain ⟨⟨a, vs⟩, hkv, he⟩ := hmd
    refine ⟨_, hkv, ?_⟩
    split at he
    · simp at he
    · cases vs with
      | deleteAll => simp only [Option.some.injEq] at he; exact ⟨_, he.symm, by simp, by simp⟩
      | list l =>
        cases l with
        | nil => simp only [Option.some.injEq] at he; exact ⟨_, he.symm, by simp, by simp⟩
        | cons x xs =>
          simp only at he
          split at he
          · simp at he
          · rename_i hne
            simp only [Option.some.injEq] at he
            refine ⟨_, he.symm, fun v hv => (List.mem_filter.1 hv).1, ?_⟩
            intro h
            simp only [Vals.list.injEq] at h
            exact absurd h hne
  refine ⟨?_, ?_, ?_, ?_, ?_⟩
  · intro md hmd ho
    obtain ⟨kv, _, u, rfl, _⟩ := hmem md hmd
    simp at ho
  · intro md hmd v hvm
    obtain ⟨kv, hkv, u, rfl, hsub, _⟩ := hmem md hmd
    exact hv kv hkv v (hsub v hvm)
  · intro ho md hmd hu
    obtain ⟨kv, hkv, u, rfl, hsub, he⟩ := hmem md hmd
    exact hi ho kv hkv (he hu)
  · apply clearsPresent_noReplace
    intro c hc
    obtain ⟨md, hmd, rfl⟩ := List.mem_map.1 hc
    obtain ⟨kv, hkv, u, rfl, _⟩ := hmem md hmd
    simp
  · intro md hmd
    obtain ⟨kv, hkv, u, rfl, _⟩ := hmem md hmd
    exact Or.inl (hk kv hkv)

/-- **C10 (one call of any kind).** -/
theorem c10_call_step (hD : Decides typeOf m G) (hf : FoldCompat lower m G)
    (read : Entry V → List Str → Except Err (PDict Str (List V)))
    (hread : ∀ e attrs got, read e attrs = .ok got → FetchOf lower e attrs got)
    (s : Session V) (hm : View lower G s) (env : ObjEnv V) (c : ObjCall V) (hc : CleanCall lower typeOf m G s env c) :
    View lower G (s.call lower typeOf m read env c).1 := by
  cases c with
  | modify mods => exact (c10_modify_step lower hD hf read s hm env mods hc).1
  | refresh attrs =>
    simp only [Session.call, refresh]
    cases hgot : read s.entry attrs with
    | error e => exact hm
    | ok got => exact (c10_refresh_step lower s hm attrs got (hread _ _ _ hgot)).1
  | replaceAttrs new =>
    have hml : modlist .replace (new.map (fun kv => (kv.1, RawVals.vals kv.2))) = .ok (new.map (fun kv => ⟨.replace, kv.1, kv.2⟩)) := by
      rw [(c07_modlist _ _).2 (by simp)]
      simp [normalise]
    have := (c10_modify_step lower hD hf read s hm env _ hc).1
    simp only [Session.call, ObjEnv.replaceAttrs, hml] at this ⊢
    exact this
  | addAttrs new =>
    obtain ⟨h1, h2, h3, h4⟩ := hc
    have hpre : ∀ d1, (if env.strict = true then Except.ok s.obj else refreshMissing lower (read s.entry) s.obj
        ((new.map (fun kv => (kv.1, Vals.list kv.2))).map Prod.fst)) = .ok d1 →
        View lower G ⟨d1, s.entry⟩ ∧ ∀ kv ∈ new, Agrees lower ⟨d1, s.entry⟩ kv.1 := by
      intro d1 hd
      split at hd
      · rename_i hst
        simp only [Except.ok.injEq] at hd; subst hd
        exact ⟨hm, h4 hst⟩
      · have := refreshMissing_step lower s hm _ read hread d1 hd
        refine ⟨this.1, fun kv hkv => this.2.2 _ ?_⟩
        simp only [List.map_map, List.mem_map]
        exact ⟨kv, hkv, rfl⟩
    simp only [Session.call, ObjEnv.addAttrs]
    split
    · exact hm
    · rename_i d1 hd1
      obtain ⟨hv1, hk1⟩ := hpre d1 hd1
      have hmod := c05_add_modlist lower typeOf m G hD d1 (view_good lower hv1) new h1 h2 h3
      split
      · exact hv1
      · rename_i mods hmods
        have hm2 : mods = addWanted lower m d1 new := by
          by_cases hb : ∃ kv ∈ new, kv.2 = [] ∧ AttrsDict.getAttr lower d1 kv.1 = []
          · rw [hmod.2 hb] at hmods; simp at hmods
          · rw [hmod.1 (fun kv hkv he hx => hb ⟨kv, hkv, he, hx⟩)] at hmods
            simpa using hmods.symm
        subst hm2
        exact (c10_modify_step lower hD hf read ⟨d1, s.entry⟩ hv1 env _ (clean_addWanted lower _ _ _ h3 hk1)).1
  | deleteAttrs del =>
    obtain ⟨h1, h2, h3, h4, h5⟩ := hc
    have hpre : ∀ d1, (if env.strict = true then Except.ok s.obj else refreshMissing lower (read s.entry) s.obj
        (del.map Prod.fst)) = .ok d1 →
        View lower G ⟨d1, s.entry⟩ ∧ ∀ kv ∈ del, Agrees lower ⟨d1, s.entry⟩ kv.1 := by
      intro d1 hd
      split at hd
      · rename_i hst
        simp only [Except.ok.injEq] at hd; subst hd
        exact ⟨hm, h4 hst⟩
      · have := refreshMissing_step lower s hm _ read hread d1 hd
        exact ⟨this.1, fun kv hkv => this.2.2 _ (List.mem_map_of_mem hkv)⟩
    simp only [Session.call, ObjEnv.deleteAttrs]
    split
    · exact hm
    · rename_i d1 hd1
      obtain ⟨hv1, hk1⟩ := hpre d1 hd1
      have hmod := c06_delete_modlist lower typeOf m G hD d1 (view_good lower hv1) del h1 h2
        (fun kv hkv l hl v hv => h3 kv hkv v (by rw [hl]; exact hv))
      simp only [hmod]
      exact (c10_modify_step lower hD hf read ⟨d1, s.entry⟩ hv1 env _ (clean_delWanted lower _ _ _ h3 hk1 h5)).1

/-- **C10 (partial).** Over any history of clean calls – modify, add_attrs, replace_attrs, delete_attrs, refresh; accepted or
not – everything the object shows equals what the server has. Missing from the full property: calls with a
literally empty list under `ignore_empty_list` and calls clearing an absent attribute (false of the code, see
`c10_ignored_empty_diverges`, `c10_clear_absent_diverges`), and raw `modify` of an attribute that was never fetched. -/
theorem c10_mirror_partial (hD : Decides typeOf m G) (hf : FoldCompat lower m G)
    (read : Entry V → List Str → Except Err (PDict Str (List V)))
    (hread : ∀ e attrs got, read e attrs = .ok got → FetchOf lower e attrs got)
    (s : Session V) (hm : View lower G s)
    (hist : List (ObjEnv V × ObjCall V)) (hc : CleanHistory lower typeOf m G read s hist) :
    let f := Session.after lower typeOf m read s hist
    ∀ attr, AttrsDict.getAttr lower f.obj attr ≠ [] →
      AttrsDict.getAttr lower f.obj attr = f.entry (lower attr) := by
  suffices h : View lower G (Session.after lower typeOf m read s hist) from h.view
  induction hist generalizing s with
  | nil => exact hm
  | cons x rest ih =>
    obtain ⟨env, c⟩ := x
    exact ih _ (c10_call_step lower hD hf read hread s hm env c hc.1) hc.2

end

/-! #### instances and counterexamples -/

abbrev lc : Str → Str := List.map Char.toLower
def plainEnv (o : EmptyOpts) : ObjEnv Nat := ⟨false, [], o, .ok (), str "cn=x", false⟩
/-- the object knows cn only; the server also has sn -/
def s0 : Session Nat :=
  ⟨CIDict.setItem lc CIDict.empty (str "cn") [1, 2],
   fun x => if x = str "cn" then [1, 2] else if x = str "sn" then [7] else []⟩
/-- a server that returns what is asked for -/
def read0 (e : Entry Nat) (attrs : List Str) : Except Err (PDict Str (List Nat)) :=
  .ok (attrs.filterMap (fun a => if e (lc a) = [] then none else some (a, e (lc a))))

theorem read0_ok (e : Entry Nat) (attrs : List Str) (got : PDict Str (List Nat)) (h : read0 e attrs = .ok got) :
    FetchOf lc e attrs got := by
  simp only [read0, Except.ok.injEq] at h
  subst h
  constructor
  · intro kv hkv
    simp only [List.mem_filterMap] at hkv
    obtain ⟨a, ha, he⟩ := hkv
    split at he
    · simp at he
    · simp only [Option.some.injEq] at he
      subst he
      rfl
  · intro a ha hne
    refine ⟨(a, e (lc a)), ?_, rfl⟩
    simp only [List.mem_filterMap]
    exact ⟨a, ha, by simp [hne]⟩

theorem eq_decides : Decides (fun _ => .ok (AttrType.default : AttrType Nat)) (fun _ a b => a == b) (fun _ _ => True) :=
  c04_default_decides (V := Nat)

theorem eq_foldCompat : FoldCompat lc (fun _ (a b : Nat) => a == b) (fun _ _ => True) :=
  ⟨fun _ _ _ => rfl, fun _ _ _ _ _ => trivial⟩

theorem s0_view : View lc (fun _ _ => True) s0 := by
  refine ⟨CIDict.inv_set lc _ _ _ (CIDict.inv_empty lc), fun _ _ _ => trivial, ?_⟩
  intro attr hne
  have hi := CIDict.inv_set lc _ (str "cn") [1, 2] (CIDict.inv_empty (V := List Nat) lc)
  have ha : CIDict.abs s0.obj = fun x => if x = str "cn" then some [1, 2] else none := by
    rw [show s0.obj = CIDict.setItem lc CIDict.empty (str "cn") [1, 2] from rfl,
      CIDict.abs_set lc _ _ _ (CIDict.inv_empty lc), CIDict.abs_empty]
    rfl
  rw [agrees_iff lc s0 hi]
  rw [getAttr_abs lc s0.obj hi] at hne
  rw [ha] at hne ⊢
  simp only at hne ⊢
  by_cases hx : lc attr = str "cn"
  · simp [s0, hx]
  · simp [hx] at hne

/-- the hypotheses of C10 are met by a real history: an ADD/DELETE/REPLACE request in various casings, adding to an
attribute the object had not fetched, an add the server rejects, a delete of everything -/
def hist0 : List (ObjEnv Nat × ObjCall Nat) :=
  [(plainEnv ⟨false, true⟩, .modify [⟨.add, str "CN", .list [3]⟩, ⟨.delete, str "Cn", .list [1]⟩, ⟨.replace, str "l", .list [7, 8]⟩]),
   (plainEnv ⟨false, true⟩, .addAttrs [(str "SN", [7, 9]), (str "cn", [2])]),
   (plainEnv ⟨false, true⟩, .modify [⟨.add, str "cn", .list [3]⟩]),
   (plainEnv ⟨false, true⟩, .deleteAttrs [(str "L", .deleteAll), (str "cn", .list [5, 2])])]

example :
    let f := Session.after lc (fun _ => .ok .default) (fun _ a b => a == b) read0 s0 hist0
    f.entry (str "cn") = [3] ∧ AttrsDict.getAttr lc f.obj (str "cN") = [3] ∧
    f.entry (str "sn") = [7, 9] ∧ AttrsDict.getAttr lc f.obj (str "sn") = [7, 9] ∧
    f.entry (str "l") = [] ∧ AttrsDict.getAttr lc f.obj (str "l") = [] := by decide

example : CleanHistory lc (fun _ => .ok .default) (fun _ a b => a == b) (fun _ _ => True) read0 s0 hist0 := by
  refine ⟨⟨by decide, by simp, by decide, by simp [ClearsPresent, meant, valsList], ?_⟩, ⟨by decide, by simp, by simp, by simp [plainEnv]⟩,
    ⟨by decide, by simp, by decide, by simp [ClearsPresent, meant, valsList], ?_⟩,
    ⟨by decide, by simp, by simp, by simp [plainEnv], by decide⟩, trivial⟩
  · intro md hmd
    simp only [List.mem_cons, List.not_mem_nil, or_false] at hmd
    rcases hmd with rfl | rfl | rfl
    · left; simp only [Agrees]; decide
    · left; simp only [Agrees]; decide
    · right; decide
  · intro md hmd
    simp only [List.mem_cons, List.not_mem_nil, or_false] at hmd
    subst hmd
    left; simp only [Agrees]; decide

/-- **C10 is false in full generality (1).** With the default options `obj.delete_attrs({'cn': []})` (documented as "delete all
values") succeeds, sends nothing, and forgets the attribute locally: the server still holds it. -/
theorem c10_ignored_empty_diverges :
    let r := s0.call lc (fun _ => .ok .default) (fun _ a b => a == b) read0 (plainEnv ⟨false, true⟩)
      (.deleteAttrs [(str "cn", .list [])])
    r.2 = .ok () ∧ r.1.entry (str "cn") = [1, 2] ∧ AttrsDict.getAttr lc r.1.obj (str "cn") = [] := by decide

/-- **C10 is false in full generality (2).** Clearing an attribute that is absent is accepted by the server, but the local
update raises `KeyError` after the server has applied the whole request, and the rest of the Mods is not applied
locally. -/
theorem c10_clear_absent_diverges :
    let r := s0.call lc (fun _ => .ok .default) (fun _ a b => a == b) read0 (plainEnv ⟨false, true⟩)
      (.replaceAttrs [(str "title", .deleteAll), (str "cn", .list [5])])
    r.2 = .error .keyError ∧ r.1.entry (str "cn") = [5] ∧ AttrsDict.getAttr lc r.1.obj (str "cn") = [1, 2] := by decide

/-- **C10 is false in full generality (3).** A raw `modify` adding to an attribute that was never fetched makes the object show
only the new values. -/
theorem c10_unfetched_add_diverges :
    let r := s0.call lc (fun _ => .ok .default) (fun _ a b => a == b) read0 (plainEnv ⟨false, true⟩)
      (.modify [⟨.add, str "sn", .list [8]⟩])
    r.2 = .ok () ∧ r.1.entry (str "sn") = [7, 8] ∧ AttrsDict.getAttr lc r.1.obj (str "sn") = [8] := by decide

/-! ### C12: requests of the smart methods are never refused for existing / missing values -/

section
variable (lower : Str → Str) {typeOf : TypeOf V} {m : Str → V → V → Bool} {G : Str → V → Prop}

/-- the requests `LDAP.modify` can send for constructible Mods -/
theorem sent_changes (env : ObjEnv V) (server : ModRequest V → Except Err Unit) (d : AttrsDict V) (mods : List (Mod V))
    (hc : ∀ md ∈ mods, md.op = .add → md.vals.len ≠ 0) :
    ∀ rq ∈ (env.modify lower typeOf server d mods).2.sent, rq.changes = mods.filterMap (wireChange env.opts) := by
  intro rq hrq
  have hrq' : rq ∈ (ldapModify env.unbound env.validators env.opts env.ctrls server env.dn mods (some d)).sent := by
    simp only [ObjEnv.modify, objModify] at hrq
    split at hrq <;> exact hrq
  by_cases he : env.opts.error = true ∧ ∃ md ∈ mods, md.vals = .list []
  · have hb := buildChanges_err env.opts mods hc he
    simp only [ldapModify, hb] at hrq'
    split at hrq' <;> first | simp at hrq' | skip
    split at hrq' <;> first | simp at hrq' | skip
    split at hrq' <;> simp at hrq'
  · have hb := (buildChanges_ok env.opts mods hc he).1
    simp only [ldapModify, hb] at hrq'
    split at hrq' <;> first | simp at hrq' | skip
    split at hrq' <;> first | simp at hrq' | skip
    split at hrq' <;> first | simp at hrq' | skip
    split at hrq' <;> first | simp at hrq' | skip
    split at hrq'
    · simp at hrq'
    · simp only [List.mem_singleton] at hrq'
      rw [hrq']

theorem srvAdd_ok (q : V → V → Bool) (vs cur : List V) (h1 : ∀ v ∈ vs, ∀ x ∈ cur, q x v = false)
    (h2 : vs.Pairwise (fun a b => q a b = false)) : srvAdd q cur vs = .ok (cur ++ vs) := by
  induction vs generalizing cur with
  | nil => simp [srvAdd]
  | cons v vs ih =>
    simp only [srvAdd]
    rw [List.pairwise_cons] at h2
    have : cur.any (fun x => q x v) = false := by
      rw [List.any_eq_false]; intro x hx; simp [h1 v (by simp) x hx]
    rw [this]
    simp only [Bool.false_eq_true, if_false]
    rw [ih (cur ++ [v]) ?_ h2.2]
    · simp
    · intro w hw x hx
      rcases List.mem_append.1 hx with hx | hx
      · exact h1 w (by simp [hw]) x hx
      · simp only [List.mem_singleton] at hx; subst hx; exact h2.1 w hw

theorem mem_dropFirst_of (p : V → Bool) (l : List V) (y : V) (hy : y ∈ l) (hp : p y = false) : y ∈ dropFirst p l := by
  induction l with
  | nil => simp at hy
  | cons x xs ih =>
    simp only [dropFirst]
    rcases List.mem_cons.1 hy with rfl | hy
    · simp [hp]
    · split
      · exact hy
      · simp [ih hy]

theorem srvDelete_ok (q : V → V → Bool) (heu : ∀ x a b, q x a = true → q x b = true → q a b = true) (vs cur : List V)
    (h1 : ∀ v ∈ vs, ∃ x ∈ cur, q x v = true)
    (h2 : vs.Pairwise (fun a b => q a b = false)) : ∃ l, srvDelete q cur vs = .ok l := by
  induction vs generalizing cur with
  | nil => exact ⟨cur, rfl⟩
  | cons v vs ih =>
    rw [List.pairwise_cons] at h2
    obtain ⟨x, hx, hxv⟩ := h1 v (by simp)
    have : cur.any (fun x => q x v) = true := List.any_eq_true.2 ⟨x, hx, hxv⟩
    simp only [srvDelete, this, if_true]
    apply ih _ _ h2.2
    intro w hw
    obtain ⟨y, hy, hyw⟩ := h1 w (by simp [hw])
    refine ⟨y, mem_dropFirst_of _ _ _ hy ?_, hyw⟩
    cases hyv : q y v with
    | false => rfl
    | true =>
      have := heu y v w hyv hyw
      rw [h2.1 w hw] at this; simp at this

/-- **C12 (add).** If what the object shows is what the server has, every request sent by `add_attrs` is accepted by an
RFC 4511 server: never attributeOrValueExists – provided the requested names and, per attribute, the requested values
are pairwise different. -/
theorem c12_add_accepted (hD : Decides typeOf m G)
    (read : Entry V → List Str → Except Err (PDict Str (List V)))
    (hread : ∀ e attrs got, read e attrs = .ok got → FetchOf lower e attrs got)
    (s : Session V) (hm : View lower G s) (env : ObjEnv V) (new : List (Str × List V))
    (hc : CleanCall lower typeOf m G s env (.addAttrs new))
    (hnames : (new.map (fun kv => lower kv.1)).Nodup)
    (hvals : ∀ kv ∈ new, kv.2.Pairwise (fun a b => m kv.1 a b = false)) (server : ModRequest V → Except Err Unit) :
    ∀ rq ∈ (env.addAttrs lower typeOf (read s.entry) server s.obj (new.map (fun kv => (kv.1, .list kv.2)))).2.sent,
      ∃ e', srvModify lower m s.entry rq.changes = .ok e' := by
  intro rq hrq
  obtain ⟨h1, h2, h3, h4⟩ := hc
  have hpre : ∀ d1, (if env.strict = true then Except.ok s.obj else refreshMissing lower (read s.entry) s.obj
      ((new.map (fun kv => (kv.1, Vals.list kv.2))).map Prod.fst)) = .ok d1 →
      View lower G ⟨d1, s.entry⟩ ∧ ∀ kv ∈ new, Agrees lower ⟨d1, s.entry⟩ kv.1 := by
    intro d1 hd
    split at hd
    · rename_i hst
      simp only [Except.ok.injEq] at hd; subst hd
      exact ⟨hm, h4 hst⟩
    · have := refreshMissing_step lower s hm _ read hread d1 hd
      refine ⟨this.1, fun kv hkv => this.2.2 _ ?_⟩
      simp only [List.map_map, List.mem_map]
      exact ⟨kv, hkv, rfl⟩
  simp only [ObjEnv.addAttrs] at hrq
  split at hrq
  · simp [ObjEnv.failed] at hrq
  · rename_i d1 hd1
    obtain ⟨hv1, hk1⟩ := hpre d1 hd1
    have hmod := c05_add_modlist lower typeOf m G hD d1 (view_good lower hv1) new h1 h2 h3
    split at hrq
    · simp [ObjEnv.failed] at hrq
    · rename_i mods hmods
      have hm2 : mods = addWanted lower m d1 new := by
        by_cases hb : ∃ kv ∈ new, kv.2 = [] ∧ AttrsDict.getAttr lower d1 kv.1 = []
        · rw [hmod.2 hb] at hmods; simp at hmods
        · rw [hmod.1 (fun kv hkv he hx => hb ⟨kv, hkv, he, hx⟩)] at hmods
          simpa using hmods.symm
      subst hm2
      have hcl := clean_addWanted (m := m) lower ⟨d1, s.entry⟩ env.opts new h3 hk1
      rw [sent_changes lower env server d1 _ hcl.constructible rq hrq, wire_meant _ _ hcl.noIgnored]
      -- now a pure statement about the server
      clear hrq hmod hmods hcl hpre hd1 h4 h2 h1
      have key : ∀ (new : List (Str × List V)) (e : Entry V), (∀ kv ∈ new, e (lower kv.1) = AttrsDict.getAttr lower d1 kv.1) →
          (new.map (fun kv => lower kv.1)).Nodup → (∀ kv ∈ new, kv.2.Pairwise (fun a b => m kv.1 a b = false)) →
          ∃ e', srvModify lower m e (meant (addWanted lower m d1 new)) = .ok e' := by
        intro new
        induction new with
        | nil => intro e _ _ _; exact ⟨e, rfl⟩
        | cons kv rest ih =>
          intro e he hn hp
          simp only [List.map_cons, List.nodup_cons] at hn
          by_cases hu : kv.2.filter (fun v => !knows lower m d1 kv.1 v) = []
          · have hcons : addWanted lower m d1 (kv :: rest) = addWanted lower m d1 rest := by
              simp only [addWanted, List.filterMap_cons, hu, if_true]
            rw [hcons]
            exact ih e (fun x hx => he x (by simp [hx])) hn.2 (fun x hx => hp x (by simp [hx]))
          · have hcons : addWanted lower m d1 (kv :: rest) =
                ⟨.add, kv.1, .list (kv.2.filter (fun v => !knows lower m d1 kv.1 v))⟩ :: addWanted lower m d1 rest := by
              simp only [addWanted, List.filterMap_cons, hu, if_false]
            rw [hcons]
            simp only [meant, List.map_cons, valsList, srvModify, srvChange]
            rw [srvAdd_ok]
            · simp only
              apply ih _ _ hn.2 (fun x hx => hp x (by simp [hx]))
              intro x hx
              simp only [Entry.put]
              rw [if_neg]
              · exact he x (by simp [hx])
              · intro heq
                exact hn.1 (List.mem_map.2 ⟨x, hx, heq⟩)
            · intro v hv x hx
              rw [he kv (by simp)] at hx
              have := (List.mem_filter.1 hv).2
              simp only [knows, Bool.not_eq_true', List.any_eq_false] at this
              simpa using this x hx
            · exact (hp kv (by simp)).sublist List.filter_sublist
      exact key new s.entry (fun kv hkv => (hk1 kv hkv).symm) hnames hvals

/-- **C12 (delete).** Likewise every request sent by `delete_attrs` is accepted: never noSuchAttribute. The equality of each
attribute must be such that two values matching the same stored value match each other. -/
theorem c12_delete_accepted (hD : Decides typeOf m G)
    (heu : ∀ attr x a b, m attr x a = true → m attr x b = true → m attr a b = true)
    (read : Entry V → List Str → Except Err (PDict Str (List V)))
    (hread : ∀ e attrs got, read e attrs = .ok got → FetchOf lower e attrs got)
    (s : Session V) (hm : View lower G s) (env : ObjEnv V) (del : List (Str × Vals V))
    (hc : CleanCall lower typeOf m G s env (.deleteAttrs del))
    (hnames : (del.map (fun kv => lower kv.1)).Nodup)
    (hvals : ∀ kv ∈ del, (valsList kv.2).Pairwise (fun a b => m kv.1 a b = false)) (server : ModRequest V → Except Err Unit) :
    ∀ rq ∈ (env.deleteAttrs lower typeOf (read s.entry) server s.obj del).2.sent,
      ∃ e', srvModify lower m s.entry rq.changes = .ok e' := by
  intro rq hrq
  obtain ⟨h1, h2, h3, h4, h5⟩ := hc
  have hpre : ∀ d1, (if env.strict = true then Except.ok s.obj else refreshMissing lower (read s.entry) s.obj
      (del.map Prod.fst)) = .ok d1 →
      View lower G ⟨d1, s.entry⟩ ∧ ∀ kv ∈ del, Agrees lower ⟨d1, s.entry⟩ kv.1 := by
    intro d1 hd
    split at hd
    · rename_i hst
      simp only [Except.ok.injEq] at hd; subst hd
      exact ⟨hm, h4 hst⟩
    · have := refreshMissing_step lower s hm _ read hread d1 hd
      exact ⟨this.1, fun kv hkv => this.2.2 _ (List.mem_map_of_mem hkv)⟩
  simp only [ObjEnv.deleteAttrs] at hrq
  split at hrq
  · simp [ObjEnv.failed] at hrq
  · rename_i d1 hd1
    obtain ⟨hv1, hk1⟩ := hpre d1 hd1
    have hmod := c06_delete_modlist lower typeOf m G hD d1 (view_good lower hv1) del h1 h2
      (fun kv hkv l hl v hv => h3 kv hkv v (by rw [hl]; exact hv))
    simp only [hmod] at hrq
    have hcl := clean_delWanted (m := m) lower ⟨d1, s.entry⟩ env.opts del h3 hk1 h5
    rw [sent_changes lower env server d1 _ hcl.constructible rq hrq, wire_meant _ _ hcl.noIgnored]
    clear hrq hmod hcl hpre hd1 h5 h4 h2 h1
    have key : ∀ (del : List (Str × Vals V)) (e : Entry V), (∀ kv ∈ del, e (lower kv.1) = AttrsDict.getAttr lower d1 kv.1) →
        (del.map (fun kv => lower kv.1)).Nodup → (∀ kv ∈ del, (valsList kv.2).Pairwise (fun a b => m kv.1 a b = false)) →
        ∃ e', srvModify lower m e (meant (delWanted lower m d1 del)) = .ok e' := by
      intro del
      induction del with
      | nil => intro e _ _ _; exact ⟨e, rfl⟩
      | cons kv rest ih =>
        intro e he hn hp
        obtain ⟨a, vs⟩ := kv
        simp only [List.map_cons, List.nodup_cons] at hn
        have hrest : ∀ l, ∃ e', srvModify lower m (e.put lower a l) (meant (delWanted lower m d1 rest)) = .ok e' := by
          intro l
          apply ih _ _ hn.2 (fun x hx => hp x (by simp [hx]))
          intro x hx
          simp only [Entry.put]
          rw [if_neg]
          · exact he x (by simp [hx])
          · intro heq
            exact hn.1 (List.mem_map.2 ⟨x, hx, heq⟩)
        have hskip : ∃ e', srvModify lower m e (meant (delWanted lower m d1 rest)) = .ok e' :=
          ih e (fun x hx => he x (by simp [hx])) hn.2 (fun x hx => hp x (by simp [hx]))
        have hea := he (a, vs) (by simp)
        simp only at hea
        by_cases hg : AttrsDict.getAttr lower d1 a = []
        · have hcons : delWanted lower m d1 ((a, vs) :: rest) = delWanted lower m d1 rest := by
            simp [delWanted, hg]
          rw [hcons]; exact hskip
        · cases vs with
          | deleteAll =>
            have hcons : delWanted lower m d1 ((a, .deleteAll) :: rest) = ⟨.delete, a, .deleteAll⟩ :: delWanted lower m d1 rest := by
              simp [delWanted, hg]
            rw [hcons]
            simp only [meant, List.map_cons, valsList, srvModify, srvChange, if_true, hea, hg, if_false]
            exact hrest []
          | list l =>
            cases l with
            | nil =>
              have hcons : delWanted lower m d1 ((a, .list []) :: rest) = ⟨.delete, a, .list []⟩ :: delWanted lower m d1 rest := by
                simp [delWanted, hg]
              rw [hcons]
              simp only [meant, List.map_cons, valsList, srvModify, srvChange, if_true, hea, hg, if_false]
              exact hrest []
            | cons x xs =>
              by_cases hu : (x :: xs).filter (fun v => knows lower m d1 a v) = []
              · have hcons : delWanted lower m d1 ((a, .list (x :: xs)) :: rest) = delWanted lower m d1 rest := by
                  simp only [delWanted, List.filterMap_cons, hg, if_false, hu, if_true]
                rw [hcons]; exact hskip
              · have hcons : delWanted lower m d1 ((a, .list (x :: xs)) :: rest) =
                    ⟨.delete, a, .list ((x :: xs).filter (fun v => knows lower m d1 a v))⟩ :: delWanted lower m d1 rest := by
                  simp only [delWanted, List.filterMap_cons, hg, if_false, hu]
                rw [hcons]
                obtain ⟨l', hl'⟩ := srvDelete_ok (m a) (heu a) ((x :: xs).filter (fun v => knows lower m d1 a v)) (e (lower a))
                  (by
                    intro v hv
                    have := (List.mem_filter.1 hv).2
                    rw [hea]
                    simpa [knows] using this)
                  ((hp (a, .list (x :: xs)) (by simp)).sublist List.filter_sublist)
                simp only [meant, List.map_cons, valsList, srvModify, srvChange, hu, if_false, hl']
                exact hrest l'
    exact key del s.entry (fun kv hkv => (hk1 kv hkv).symm) hnames hvals

/-- both requests of this instance are non-trivial -/
example :
    ((plainEnv ⟨false, true⟩).addAttrs lc (fun _ => .ok .default) (read0 s0.entry) (fun _ => .ok ()) s0.obj
      [(str "SN", .list [7, 9]), (str "cn", .list [4, 2])]).2.sent
      = [⟨str "cn=x", [⟨.add, str "SN", [9]⟩, ⟨.add, str "cn", [4]⟩]⟩] ∧
    ((plainEnv ⟨false, true⟩).deleteAttrs lc (fun _ => .ok .default) (read0 s0.entry) (fun _ => .ok ()) s0.obj
      [(str "SN", .list [8, 7]), (str "CN", .deleteAll), (str "l", .list [1])]).2.sent
      = [⟨str "cn=x", [⟨.delete, str "SN", [7]⟩, ⟨.delete, str "CN", []⟩]⟩] := by decide

/-- the condition on distinct values is needed: a value requested twice is added twice -/
theorem c12_duplicate_rejected :
    let rq := ((plainEnv ⟨false, true⟩).addAttrs lc (fun _ => .ok .default) (read0 s0.entry) (fun _ => .ok ()) s0.obj
      [(str "cn", .list [4, 4])]).2.sent
    rq = [⟨str "cn=x", [⟨.add, str "cn", [4, 4]⟩]⟩] ∧
    answer lc (fun _ a b => a == b) s0.entry ⟨str "cn=x", [⟨.add, str "cn", [4, 4]⟩]⟩ = .error .ldapError := by decide

end
end Laurelin.Props
