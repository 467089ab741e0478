import Verif.Props.Transaction
import Verif.Props.Mirror
/-! Property C59: a committed transaction has the effect of the same calls made directly. -/
set_option linter.unusedSectionVars false
namespace Laurelin.Props
open Laurelin Spec
variable {V : Type} [DecidableEq V] (lower : Str → Str)

/-- one call made on a transaction object -/
def transCall (typeOf : TypeOf V) (fetch : List Str → Except Err (PDict Str (List V))) (env : ObjEnv V) (t : Trans V) :
    ObjCall V → Trans V × Except Err Unit
  | .modify mods => transModify lower typeOf env t mods
  | .addAttrs new => transAddAttrs lower typeOf env fetch t (new.map (fun kv => (kv.1, .list kv.2)))
  | .replaceAttrs new => transReplaceAttrs lower typeOf env t new
  | .deleteAttrs del => transDeleteAttrs lower typeOf env fetch t del
  | .refresh attrs => match refresh lower fetch t.attrs attrs with
    | .ok d => ({ t with attrs := d }, .ok ())
    | .error e => (t, .error e)

/-- the calls in order, stopping at the first exception -/
def transCalls (typeOf : TypeOf V) (fetch : List Str → Except Err (PDict Str (List V))) (env : ObjEnv V) (t : Trans V) :
    List (ObjCall V) → Trans V × Except Err Unit
  | [] => (t, .ok ())
  | c :: cs => match transCall lower typeOf fetch env t c with
    | (t', .ok _) => transCalls typeOf fetch env t' cs
    | (t', .error e) => (t', .error e)

/-- the calls made directly all succeed and are clean -/
def DirectOk (typeOf : TypeOf V) (m : Str → V → V → Bool) (G : Str → V → Prop)
    (read : Entry V → List Str → Except Err (PDict Str (List V))) (env : ObjEnv V) (s : Session V) : List (ObjCall V) → Prop
  | [] => True
  | c :: cs => CleanCall lower typeOf m G s env c ∧ (s.call lower typeOf m read env c).2 = .ok () ∧
      DirectOk typeOf m G read env (s.call lower typeOf m read env c).1 cs

/-- no entry of the object's dictionary is stale (see C02) -/
def NoStale (d : AttrsDict V) : Prop := ∀ kv ∈ d.data, kv.2 = AttrsDict.getAttr lower d kv.1

section
variable {typeOf : TypeOf V} {m : Str → V → V → Bool} {G : Str → V → Prop}

theorem deepcopy_eq (d : AttrsDict V) (h : CIDict.Inv lower d) : AttrsDict.deepcopy d = d.data := by
  have key : ∀ (l acc : PDict Str (List V)), (PDict.keys (acc ++ l)).Nodup →
      l.foldl (fun ret kv => PDict.set ret kv.1 kv.2) acc = acc ++ l := by
    intro l
    induction l with
    | nil => intros; simp
    | cons kv rest ih =>
      intro acc hn
      have hset : ∀ (acc : PDict Str (List V)), kv.1 ∉ PDict.keys acc → PDict.set acc kv.1 kv.2 = acc ++ [kv] := by
        intro acc
        induction acc with
        | nil => intro _; rfl
        | cons a t iht =>
          intro hna
          obtain ⟨x, y⟩ := a
          simp only [PDict.keys, List.map_cons, List.mem_cons, not_or] at hna
          simp only [PDict.set]
          have hx : ¬ x = kv.1 := fun e => hna.1 e.symm
          rw [if_neg hx, iht hna.2]
          rfl
      simp only [List.foldl_cons]
      rw [hset acc, ih]
      · simp
      · simpa using hn
      · simp only [PDict.keys, List.map_append, List.map_cons] at hn ⊢
        have := (List.nodup_append.1 hn).2.2
        intro hmem
        exact this _ hmem kv.1 (by simp) rfl
  have := key d.data [] (by simpa using h.nd)
  simpa [AttrsDict.deepcopy, CIDict.items] using this

/-- the transaction starts with the same attributes -/
theorem copy_same (d : AttrsDict V) (h : CIDict.Inv lower d) (hns : NoStale lower d) :
    CIDict.Inv lower (copyAttrs lower d) ∧ ∀ x, (CIDict.abs (copyAttrs lower d) x).getD [] = (CIDict.abs d x).getD [] := by
  have hu := update_abs lower d.data CIDict.empty (CIDict.inv_empty lower) (fun x => (CIDict.abs d x).getD [])
    (by intro kv hkv; rw [hns kv hkv, getAttr_abs lower d h])
  rw [copyAttrs, deepcopy_eq lower d h]
  refine ⟨hu.1, fun x => ?_⟩
  by_cases hex : ∃ kv ∈ d.data, lower kv.1 = x
  · rw [(hu.2 x).1 hex]; rfl
  · rw [(hu.2 x).2 hex, CIDict.abs_empty]
    cases hx : CIDict.abs d x with
    | none => rfl
    | some v =>
      exfalso
      simp only [CIDict.abs] at hx
      cases hk : d.keys.get? x with
      | none => rw [hk] at hx; simp at hx
      | some k =>
        rw [hk] at hx
        have hc := h.cas x k hk
        apply hex
        have hmem : ∀ (l : PDict Str (List V)) k v, PDict.get? l k = some v → ∃ kv ∈ l, kv.1 = k := by
          intro l k v
          induction l with
          | nil => intro h; simp at h
          | cons a t iht =>
            intro h
            simp only [PDict.get?] at h
            split at h
            · rename_i e; exact ⟨a, by simp, e⟩
            · obtain ⟨kv, h1, h2⟩ := iht h; exact ⟨kv, by simp [h1], h2⟩
        obtain ⟨kv, h1, h2⟩ := hmem _ _ _ hx
        exact ⟨kv, h1, by rw [h2]; exact hc.1⟩

/-- the mods a call amounts to when no refresh is needed -/
def callMods (m : Str → V → V → Bool) (d : AttrsDict V) : ObjCall V → List (Mod V)
  | .modify mods => mods
  | .addAttrs new => addWanted lower m d new
  | .replaceAttrs new => new.map (fun kv => ⟨.replace, kv.1, kv.2⟩)
  | .deleteAttrs del => delWanted lower m d del
  | .refresh _ => []

theorem wanted_congr (d d' : AttrsDict V) (h : ∀ a, AttrsDict.getAttr lower d a = AttrsDict.getAttr lower d' a) (c : ObjCall V) :
    callMods lower m d c = callMods lower m d' c := by
  cases c with
  | modify => rfl
  | replaceAttrs => rfl
  | refresh => rfl
  | addAttrs new =>
    have hk : knows lower m d = knows lower m d' := by funext a v; simp only [knows, h]
    simp only [callMods, addWanted]
    rw [hk]
  | deleteAttrs del =>
    have : AttrsDict.getAttr lower d = AttrsDict.getAttr lower d' := funext h
    have hk : knows lower m d = knows lower m d' := by funext a v; simp only [knows, h]
    simp only [callMods, delWanted]
    rw [hk, this]

theorem localModify_deleteAll (d : AttrsDict V) (mods : List (Mod V)) (hc : ∀ md ∈ mods, md.op = .add → md.vals.len ≠ 0) :
    localModify lower typeOf d mods = localModify lower typeOf d (mods.map settle) := by
  induction mods generalizing d with
  | nil => rfl
  | cons md rest ih =>
    have h1 : localModify1 lower typeOf d md = localModify1 lower typeOf d (settle md) := by
      have := hc md (by simp)
      obtain ⟨op, a, v⟩ := md
      cases v with
      | list l => rfl
      | deleteAll =>
        cases op with
        | add => simp [Vals.len] at this
        | replace => rfl
        | delete => rfl
    simp only [localModify, List.map_cons, ← h1]
    split
    · exact ih _ (fun x hx => hc x (by simp [hx]))
    · rfl

/-- the client shows the whole entry -/
def FullView (G : Str → V → Prop) (s : Session V) : Prop := View lower G s ∧ ∀ attr, Agrees lower s attr

/-- one direct call in strict mode that succeeds is the RFC 4511 application of `callMods` -/
theorem direct_step (hD : Decides typeOf m G) (hf : FoldCompat lower m G)
    (read : Entry V → List Str → Except Err (PDict Str (List V)))
    (hread : ∀ e attrs got, read e attrs = .ok got → FetchOf lower e attrs got)
    (env : ObjEnv V) (hst : env.strict = true) (s : Session V) (hm : FullView lower G s) (c : ObjCall V)
    (hc : CleanCall lower typeOf m G s env c) (hok : (s.call lower typeOf m read env c).2 = .ok ()) :
    FullView lower G (s.call lower typeOf m read env c).1 ∧ Clean lower m G s env.opts (callMods lower m s.obj c) ∧
    srvModify lower m s.entry (meant (callMods lower m s.obj c)) = .ok (s.call lower typeOf m read env c).1.entry ∧
    (∀ d, (∀ a, AttrsDict.getAttr lower d a = AttrsDict.getAttr lower s.obj a) → GoodAttrs lower G d → ∀ l, ∀ fetch,
      transCall lower typeOf fetch env ⟨none, l, d⟩ c = match c with
        | .refresh attrs => transCall lower typeOf fetch env ⟨none, l, d⟩ (.refresh attrs)
        | _ => transModify lower typeOf env ⟨none, l, d⟩ (callMods lower m s.obj c)) := by
  cases c with
  | modify mods =>
    have h := c10_modify_step lower hD hf read s hm.1 env mods hc
    exact ⟨⟨h.1, fun a => h.2.1 a (hm.2 a)⟩, hc, (h.2.2.1 hok).1, fun d _ _ l _ => rfl⟩
  | refresh attrs =>
    have hsame : (s.call lower typeOf m read env (.refresh attrs)).1.entry = s.entry := by
      simp only [Session.call]; split <;> rfl
    refine ⟨?_, ⟨by simp [callMods], by simp [callMods], by simp [callMods], trivial, by simp [callMods]⟩, ?_, fun d _ _ l _ => rfl⟩
    · simp only [Session.call, refresh]
      cases hgot : read s.entry attrs with
      | error e => exact hm
      | ok got =>
        have := c10_refresh_step lower s hm.1 attrs got (hread _ _ _ hgot)
        exact ⟨this.1, fun a => this.2.1 a (hm.2 a)⟩
    · simp only [callMods, meant, List.map_nil, srvModify, hsame]
  | replaceAttrs new =>
    have hml : modlist .replace (new.map (fun kv => (kv.1, RawVals.vals kv.2))) = .ok (new.map (fun kv => ⟨.replace, kv.1, kv.2⟩)) := by
      rw [(c07_modlist _ _).2 (by simp)]
      simp [normalise]
    have hcall : s.call lower typeOf m read env (.replaceAttrs new) =
        s.call lower typeOf m read env (.modify (new.map (fun kv => ⟨.replace, kv.1, kv.2⟩))) := by
      simp only [Session.call, ObjEnv.replaceAttrs, hml]
    rw [hcall] at hok ⊢
    have h := c10_modify_step lower hD hf read s hm.1 env _ hc
    refine ⟨⟨h.1, fun a => h.2.1 a (hm.2 a)⟩, hc, (h.2.2.1 hok).1, fun d _ _ l _ => ?_⟩
    simp only [transCall, transReplaceAttrs, hml, callMods]
  | addAttrs new =>
    obtain ⟨h1, h2, h3, h4⟩ := hc
    have hmods : ∀ d, (∀ a, AttrsDict.getAttr lower d a = AttrsDict.getAttr lower s.obj a) → GoodAttrs lower G d →
        (∀ kv ∈ new, kv.2 = [] → AttrsDict.getAttr lower s.obj kv.1 ≠ []) →
        addModlist lower typeOf d (new.map (fun kv => (kv.1, .list kv.2))) = .ok (addWanted lower m s.obj new) := by
      intro d hd hg hne
      have := (c05_add_modlist lower typeOf m G hD d hg new h1 h2 h3).1 (fun kv hkv he => by rw [hd]; exact hne kv hkv he)
      rw [this]
      exact congrArg Except.ok (wanted_congr lower (m := m) d s.obj hd (.addAttrs new))
    have hne : ∀ kv ∈ new, kv.2 = [] → AttrsDict.getAttr lower s.obj kv.1 ≠ [] := by
      intro kv hkv he hnil
      have := (c05_add_modlist lower typeOf m G hD s.obj (view_good lower hm.1) new h1 h2 h3).2 ⟨kv, hkv, he, hnil⟩
      simp [Session.call, ObjEnv.addAttrs, hst, this, ObjEnv.failed] at hok
    have hcall : s.call lower typeOf m read env (.addAttrs new) =
        s.call lower typeOf m read env (.modify (addWanted lower m s.obj new)) := by
      simp only [Session.call, ObjEnv.addAttrs, hst, if_true, hmods s.obj (fun _ => rfl) (view_good lower hm.1) hne]
    rw [hcall] at hok ⊢
    have hcl := clean_addWanted (m := m) lower s env.opts new h3 (fun kv hkv => hm.2 kv.1)
    have h := c10_modify_step lower hD hf read s hm.1 env _ hcl
    refine ⟨⟨h.1, fun a => h.2.1 a (hm.2 a)⟩, hcl, (h.2.2.1 hok).1, fun d hd hg l _ => ?_⟩
    simp only [transCall, transAddAttrs, hst, if_true, hmods d hd hg hne, callMods]
  | deleteAttrs del =>
    obtain ⟨h1, h2, h3, h4, h5⟩ := hc
    have hmods : ∀ d, (∀ a, AttrsDict.getAttr lower d a = AttrsDict.getAttr lower s.obj a) → GoodAttrs lower G d →
        deleteModlist lower typeOf d del = .ok (delWanted lower m s.obj del) := by
      intro d hd hg
      have := c06_delete_modlist lower typeOf m G hD d hg del h1 h2 (fun kv hkv l hl v hv => h3 kv hkv v (by rw [hl]; exact hv))
      rw [this]
      exact congrArg Except.ok (wanted_congr lower (m := m) d s.obj hd (.deleteAttrs del))
    have hcall : s.call lower typeOf m read env (.deleteAttrs del) =
        s.call lower typeOf m read env (.modify (delWanted lower m s.obj del)) := by
      simp only [Session.call, ObjEnv.deleteAttrs, hst, if_true, hmods s.obj (fun _ => rfl) (view_good lower hm.1)]
    rw [hcall] at hok ⊢
    have hcl := clean_delWanted (m := m) lower s env.opts del h3 (fun kv hkv => hm.2 kv.1) h5
    have h := c10_modify_step lower hD hf read s hm.1 env _ hcl
    refine ⟨⟨h.1, fun a => h.2.1 a (hm.2 a)⟩, hcl, (h.2.2.1 hok).1, fun d hd hg l _ => ?_⟩
    simp only [transCall, transDeleteAttrs, hst, if_true, hmods d hd hg, callMods]

theorem srvModify_append (e e1 e2 : Entry V) (a b : List (Change V)) (h1 : srvModify lower m e a = .ok e1)
    (h2 : srvModify lower m e1 b = .ok e2) : srvModify lower m e (a ++ b) = .ok e2 := by
  induction a generalizing e with
  | nil => simp only [srvModify, Except.ok.injEq] at h1; subst h1; exact h2
  | cons c cs ih =>
    simp only [List.cons_append, srvModify] at h1 ⊢
    split at h1
    · exact ih _ h1
    · simp at h1

theorem clearsPresent_append (e e1 : Entry V) (a b : List (Change V)) (h1 : srvModify lower m e a = .ok e1)
    (ha : ClearsPresent lower m e a) (hb : ClearsPresent lower m e1 b) : ClearsPresent lower m e (a ++ b) := by
  induction a generalizing e with
  | nil => simp only [srvModify, Except.ok.injEq] at h1; subst h1; exact hb
  | cons c cs ih =>
    simp only [List.cons_append, srvModify] at h1 ⊢
    split at h1
    · rename_i e' he'
      refine ⟨ha.1, fun e'' he'' => ?_⟩
      rw [he'] at he''
      simp only [Except.ok.injEq] at he''
      subst he''
      exact ih _ h1 (ha.2 _ he')
    · simp at h1

/-- **C59 (partial).** With `strict_modify` and an object that shows the whole entry, on a connection whose validators
accept: if the calls made directly on the object would all succeed (and are clean, see C10; no refresh call among them),
then making the same calls in a transaction never raises, and committing sends one request that the server accepts and that
leaves the server with exactly the entry the direct calls would have produced, the original object showing it.
Missing from the full property: the default non-strict mode, where it is false (`c59_refresh_resurrects`). -/
theorem c59_transaction_effect_partial (hD : Decides typeOf m G) (hf : FoldCompat lower m G)
    (read : Entry V → List Str → Except Err (PDict Str (List V)))
    (hread : ∀ e attrs got, read e attrs = .ok got → FetchOf lower e attrs got)
    (env : ObjEnv V) (hst : env.strict = true) (hval : ∀ a, runValidation env.validators a = .ok ())
    (hopen : env.unbound = false) (hctrl : env.ctrls = .ok ()) (herr : env.opts.error = false)
    (s : Session V) (hm : FullView lower G s) (hns : NoStale lower s.obj) (fetch : List Str → Except Err (PDict Str (List V)))
    (calls : List (ObjCall V)) (hnr : ∀ c ∈ calls, ∀ attrs, c ≠ .refresh attrs)
    (hok : DirectOk lower typeOf m G read env s calls) :
    ∃ t, transCalls lower typeOf fetch env ⟨none, [], copyAttrs lower s.obj⟩ calls = (t, .ok ()) ∧
      let r := s.call lower typeOf m read env (.modify t.modlist)
      let direct := Session.after lower typeOf m read s (calls.map (fun c => (env, c)))
      r.2 = .ok () ∧ r.1.entry = direct.entry ∧ ∀ attr, Agrees lower r.1 attr := by
  -- invariant: the transaction's attributes are those of the direct run, the staged list takes the entry there
  have key : ∀ (calls : List (ObjCall V)) (s' : Session V) (l : List (Mod V)) (d : AttrsDict V),
      (∀ c ∈ calls, ∀ attrs, c ≠ .refresh attrs) → DirectOk lower typeOf m G read env s' calls → FullView lower G s' →
      CIDict.Inv lower d → SyncOn (fun x => ∃ k, lower k = x) d s'.entry →
      srvModify lower m s.entry (meant l) = .ok s'.entry → Clean lower m G s env.opts l →
      ∃ t, transCalls lower typeOf fetch env ⟨none, l, d⟩ calls = (t, .ok ()) ∧
        srvModify lower m s.entry (meant t.modlist) =
          .ok (Session.after lower typeOf m read s' (calls.map (fun c => (env, c)))).entry ∧
        Clean lower m G s env.opts t.modlist := by
    intro calls
    induction calls with
    | nil => intro s' l d _ _ _ _ _ hs hcl; exact ⟨_, rfl, hs, hcl⟩
    | cons c cs ih =>
      intro s' l d hnr hdir hfull hinv hsync hs hcl
      obtain ⟨hcc, hcok, hrest⟩ := hdir
      obtain ⟨g1, g2, g3, g4⟩ := direct_step lower hD hf read hread env hst s' hfull c hcc hcok
      have hget : ∀ a, AttrsDict.getAttr lower d a = AttrsDict.getAttr lower s'.obj a := by
        intro a
        rw [getAttr_abs lower d hinv, hsync _ ⟨a, rfl⟩]
        exact (hfull.2 a).symm
      have hgood : GoodAttrs lower G d := by
        intro a x hx
        rw [hget a] at hx
        exact view_good lower hfull.1 a x hx
      have hstep := g4 d hget hgood l fetch
      obtain ⟨d', k1, k2, k3, _⟩ := localModify_sim (P := fun x => ∃ k, lower k = x) lower hD hf
        ((callMods lower m s'.obj c).map settle) d s'.entry _ hinv hsync hfull.1.good
        (fun _ _ => Or.inl ⟨_, rfl⟩)
        (by
          intro md hmd
          obtain ⟨x, _, rfl⟩ := List.mem_map.1 hmd
          obtain ⟨op, a, v⟩ := x
          cases v with
          | deleteAll => exact ⟨[], rfl⟩
          | list l => exact ⟨l, rfl⟩)
        (by
          intro md hmd
          obtain ⟨x, hx, rfl⟩ := List.mem_map.1 hmd
          have := g2.constructible x hx
          obtain ⟨op, a, v⟩ := x
          cases v <;> exact this)
        (by
          intro md hmd
          obtain ⟨x, hx, rfl⟩ := List.mem_map.1 hmd
          have := g2.good x hx
          obtain ⟨op, a, v⟩ := x
          cases v <;> exact this)
        (by rw [meant_settle]; exact g2.present)
        (by rw [meant_settle]; exact g3)
      rw [← localModify_deleteAll lower d _ g2.constructible] at k1
      have htc : transCall lower typeOf fetch env ⟨none, l, d⟩ c =
          (⟨none, l ++ callMods lower m s'.obj c, d'⟩, .ok ()) := by
        rw [hstep]
        cases c with
        | refresh attrs => exact absurd rfl (hnr _ (by simp) attrs)
        | _ => simp only [transModify, hval, k1]
      simp only [transCalls, htc]
      have hl : meant (l ++ callMods lower m s'.obj c) = meant l ++ meant (callMods lower m s'.obj c) := by simp [meant]
      apply ih _ _ _ (fun c hc => hnr c (by simp [hc])) hrest g1 k2 (fun x hx => k3 x (Or.inl hx))
      · rw [hl]; exact srvModify_append lower _ _ _ _ _ hs g3
      · refine ⟨?_, ?_, ?_, ?_, ?_⟩
        · intro md hmd
          rcases List.mem_append.1 hmd with h | h
          · exact hcl.constructible md h
          · exact g2.constructible md h
        · intro md hmd
          rcases List.mem_append.1 hmd with h | h
          · exact hcl.good md h
          · exact g2.good md h
        · intro hi md hmd
          rcases List.mem_append.1 hmd with h | h
          · exact hcl.noIgnored hi md h
          · exact g2.noIgnored hi md h
        · rw [hl]; exact clearsPresent_append lower _ _ _ _ hs hcl.present g2.present
        · intro md _; exact Or.inl (hm.2 md.attr)
  have hcopy := copy_same lower s.obj hm.1.inv hns
  obtain ⟨t, h1, h2, h3⟩ := key calls s [] (copyAttrs lower s.obj) hnr hok hm hcopy.1
    (by
      rintro x ⟨k, rfl⟩
      rw [hcopy.2]
      exact (agrees_iff lower s hm.1.inv k).1 (hm.2 k))
    rfl ⟨by simp, by simp, by simp, trivial, by simp⟩
  refine ⟨t, h1, ?_⟩
  have hs := c10_modify_step lower hD hf read s hm.1 env t.modlist h3
  have hacc : (ldapModify env.unbound env.validators env.opts env.ctrls (answer lower m s.entry) env.dn t.modlist (some s.obj)).result
      = .ok () := by
    rw [hopen, hctrl]
    have := ((c08_request env.validators env.opts (answer lower m s.entry) env.dn t.modlist (some s.obj) h3.constructible
      (hval _)).2 (by simp [herr])).2
    rw [this, wire_meant _ _ h3.noIgnored]
    split
    · rfl
    · simp only [answer, h2]
  have hr := hs.2.2.2.2 hacc
  refine ⟨hr, ?_, fun a => hs.2.1 a (hm.2 a)⟩
  have := (hs.2.2.1 hr).1
  rw [h2] at this
  simpa using this.symm
end

/-! #### instances -/

def senv : ObjEnv Nat := { plainEnv ⟨false, true⟩ with strict := true }
/-- the object shows the whole entry -/
def s1 : Session Nat :=
  ⟨CIDict.setItem lc CIDict.empty (str "cn") [1, 2], fun x => if x = str "cn" then [1, 2] else []⟩
def calls1 : List (ObjCall Nat) :=
  [.deleteAttrs [(str "cn", .deleteAll)], .addAttrs [(str "CN", [1]), (str "sn", [4])], .replaceAttrs [(str "sn", .list [5, 6])]]

example : FullView lc (fun _ _ => True) s1 := by
  have hi := CIDict.inv_set lc _ (str "cn") [1, 2] (CIDict.inv_empty (V := List Nat) lc)
  have ha : ∀ attr, Agrees lc s1 attr := by
    intro attr
    rw [agrees_iff lc s1 hi]
    rw [show s1.obj = CIDict.setItem lc CIDict.empty (str "cn") [1, 2] from rfl,
      CIDict.abs_set lc _ _ _ (CIDict.inv_empty lc), CIDict.abs_empty]
    simp only [FoldMap.put, s1, show lc (str "cn") = str "cn" from by decide]
    split <;> rfl
  exact ⟨⟨hi, fun _ _ _ => trivial, fun a _ => ha a⟩, ha⟩
example : NoStale lc s1.obj := by
  intro kv hkv
  simp only [s1, CIDict.setItem, CIDict.empty, PDict.set, List.mem_singleton] at hkv
  subst hkv; decide
example : DirectOk lc (fun _ => .ok .default) (fun _ a b => a == b) (fun _ _ => True) read0 senv s1 calls1 := by
  refine ⟨⟨by decide, by simp, by simp, ?_, by decide⟩, by decide, ⟨by decide, by simp, by simp, ?_⟩, by decide,
    ⟨by decide, by simp, by decide, by simp [ClearsPresent, meant, valsList], ?_⟩, by decide, trivial⟩
  · intro _ kv hkv
    simp only [List.mem_singleton] at hkv; subst hkv
    simp only [Agrees]; decide
  · intro _ kv hkv
    simp only [List.mem_cons, List.not_mem_nil, or_false] at hkv
    rcases hkv with rfl | rfl <;> (simp only [Agrees]; decide)
  · intro md hmd
    simp only [List.map_cons, List.map_nil, List.mem_singleton] at hmd; subst hmd
    right; decide
example :
    (transCalls lc (fun _ => .ok .default) (read0 s1.entry) senv ⟨none, [], copyAttrs lc s1.obj⟩ calls1).1.modlist
      = [⟨.delete, str "cn", .deleteAll⟩, ⟨.add, str "CN", .list [1]⟩, ⟨.add, str "sn", .list [4]⟩, ⟨.replace, str "sn", .list [5, 6]⟩] := by
  decide

/-- **C59 is false in the default (non-strict) mode.** Deleting all values of an attribute and then adding one of them back inside a
transaction loses the added value: `add_attrs` finds the attribute missing in the transaction, re-reads it from the
server – where the deletion has not happened yet – and concludes that the value is already there. Made directly, the same
two calls leave the server with the value. -/
theorem c59_refresh_resurrects :
    let calls : List (ObjCall Nat) := [.deleteAttrs [(str "cn", .deleteAll)], .addAttrs [(str "cn", [1])]]
    let env := plainEnv ⟨false, true⟩
    let t := (transCalls lc (fun _ => .ok .default) (read0 s1.entry) env ⟨none, [], copyAttrs lc s1.obj⟩ calls).1
    let r := s1.call lc (fun _ => .ok .default) (fun _ a b => a == b) read0 env (.modify t.modlist)
    let direct := Session.after lc (fun _ => .ok .default) (fun _ a b => a == b) read0 s1 (calls.map (fun c => (env, c)))
    t.modlist = [⟨.delete, str "cn", .deleteAll⟩] ∧ AttrsDict.getAttr lc t.attrs (str "cn") = [1, 2] ∧
    r.1.entry (str "cn") = [] ∧ direct.entry (str "cn") = [1] := by decide

end Laurelin.Props
