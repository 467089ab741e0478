import Verif.Props.TransWireEffect
/-!
# C95 what the calls do to the transactions, for any peer
-/
set_option linter.unusedSectionVars false
namespace Laurelin.Props
open Laurelin Codec Asn1 Rfc4511 Spec OverWire
open Spec.TransWireS
open WireP (codec shown)
namespace TranP

/-- the kind of change that a call stages -/
def Stages : Stage → Mod AVal → Prop
  | .modify mods, md => md ∈ mods
  | .addAttrs new, md => md.op = .add ∧ md.vals.len ≠ 0
  | .replaceAttrs new, md => md.op = .replace ∧ (md.attr, md.vals) ∈ new
  | .deleteAttrs del, md => md.op = .delete
  | .refresh _, _ => False

theorem modlist_ops (op : ModOp) (items : List (Str × RawVals AVal)) (mods : List (Mod AVal)) (h : modlist op items = .ok mods) :
    mods = items.map (fun kv => ⟨op, kv.1, normalise kv.2⟩) ∧ (op = .add → ∀ md ∈ mods, md.vals.len ≠ 0) := by
  by_cases hb : op = .add ∧ ∃ kv ∈ items, (normalise kv.2).len = 0
  · rw [(c07_modlist op items).1 hb] at h; cases h
  · rw [(c07_modlist op items).2 hb] at h
    cases h
    refine ⟨rfl, fun ho md hmd hz => hb ⟨ho, ?_⟩⟩
    obtain ⟨kv, hkv, rfl⟩ := List.mem_map.1 hmd
    exact ⟨kv, hkv, hz⟩

section
variable {V R M S : Type} (C : Net.Codec UInt8 M) (view : M → Asn1.Val) (peer : Peer S) (lower : Str → Str) (typeOf : TypeOf AVal)

theorem trans_staged (env : ObjEnv AVal) (t : Trans AVal) (mods : List (Mod AVal)) :
    let x := transModify lower typeOf env t mods
    x.1.parent = t.parent ∧ ((x.1 = t ∧ ∃ e, x.2 = .error e ∧ runValidation env.validators (env.dn, mods, some t.attrs) = .error e) ∨
      (runValidation env.validators (env.dn, mods, some t.attrs) = .ok () ∧ x.1.modlist = t.modlist ++ mods)) := by
  intro x
  simp only [x, transModify]
  cases hv : runValidation env.validators (env.dn, mods, some t.attrs) with
  | error e => exact ⟨rfl, .inl ⟨rfl, e, rfl, rfl⟩⟩
  | ok u => exact ⟨rfl, .inr ⟨rfl, rfl⟩⟩

theorem stage_more (env : OverWire.Env V R) (l : Link M S) (t : Trans AVal) (c : Stage) :
    let x := stageOn C view peer lower typeOf env l t c
    x.2.1.parent = t.parent ∧ ∃ more, x.2.1.modlist = t.modlist ++ more ∧ (∀ md ∈ more, Stages c md) ∧
      (x.2.2 = .ok () → (∀ mods, c = .modify mods → more = mods) ∧ (∀ new, c = .replaceAttrs new → more = new.map (fun kv => ⟨.replace, kv.1, kv.2⟩))) := by
  intro x
  have none_more : ∀ (y : Link M S × Trans AVal × Except Err Unit), y.2.1.parent = t.parent → y.2.1.modlist = t.modlist → (y.2.2 = .ok () → (∀ mods, c ≠ .modify mods) ∧ ∀ new, c ≠ .replaceAttrs new) →
      y.2.1.parent = t.parent ∧ ∃ more, y.2.1.modlist = t.modlist ++ more ∧ (∀ md ∈ more, Stages c md) ∧
      (y.2.2 = .ok () → (∀ mods, c = .modify mods → more = mods) ∧ (∀ new, c = .replaceAttrs new → more = new.map (fun kv => ⟨.replace, kv.1, kv.2⟩))) := by
    intro y h1 h2 h3
    exact ⟨h1, [], by simp [h2], nofun, fun h => ⟨fun mods hm => absurd hm ((h3 h).1 mods), fun new hn => absurd hn ((h3 h).2 new)⟩⟩
  have some_more : ∀ (l' : Link M S) (t1 : Trans AVal) (mods : List (Mod AVal)), t1.parent = t.parent → t1.modlist = t.modlist → (∀ md ∈ mods, Stages c md) →
      (∀ ms, c = .modify ms → mods = ms) → (∀ new, c = .replaceAttrs new → mods = new.map (fun kv => ⟨.replace, kv.1, kv.2⟩)) →
      let y : Link M S × Trans AVal × Except Err Unit := (l', transModify lower typeOf env.obj t1 mods)
      y.2.1.parent = t.parent ∧ ∃ more, y.2.1.modlist = t.modlist ++ more ∧ (∀ md ∈ more, Stages c md) ∧
      (y.2.2 = .ok () → (∀ mods, c = .modify mods → more = mods) ∧ (∀ new, c = .replaceAttrs new → more = new.map (fun kv => ⟨.replace, kv.1, kv.2⟩))) := by
    intro l' t1 mods h1 h2 h3 h4 h5 y
    obtain ⟨k1, k2⟩ := trans_staged lower typeOf env.obj t1 mods
    refine ⟨k1.trans h1, ?_⟩
    rcases k2 with ⟨q1, e, q2, _⟩ | ⟨_, q⟩
    · refine ⟨[], ?_, nofun, fun h => ?_⟩
      · rw [show y.2.1 = t1 from q1]; simp [h2]
      · rw [show y.2.2 = .error e from q2] at h
        cases h
    · refine ⟨mods, ?_, h3, fun _ => ⟨h4, h5⟩⟩
      rw [show y.2.1.modlist = t1.modlist ++ mods from q, h2]
  cases c with
  | modify mods => exact some_more l t mods rfl rfl (fun md h => h) (fun ms h => by cases h; rfl) nofun
  | addAttrs new =>
    simp only [x, stageOn]
    rcases OverWire.prepare C view peer env lower l t.attrs (new.map Prod.fst) with ⟨l1, e | d1⟩
    · exact none_more (l1, t, .error e) rfl rfl nofun
    · dsimp only
      cases h : addModlist lower typeOf d1 (new.map (fun kv => (kv.1, Vals.list kv.2))) with
      | error e => exact none_more (l1, { t with attrs := d1 }, .error e) rfl rfl nofun
      | ok mods =>
        refine some_more l1 { t with attrs := d1 } mods rfl rfl (fun md hmd => ?_) nofun nofun
        simp only [addModlist] at h
        split at h
        · cases h
        · obtain ⟨h1, h2⟩ := modlist_ops _ _ _ h
          refine ⟨?_, h2 rfl md hmd⟩
          rw [h1] at hmd
          obtain ⟨kv, _, rfl⟩ := List.mem_map.1 hmd
          rfl
  | replaceAttrs new =>
    simp only [x, stageOn]
    cases h : modlist .replace (new.map (fun kv => (kv.1, RawVals.vals kv.2))) with
    | error e => exact none_more (l, t, .error e) rfl rfl nofun
    | ok mods =>
      have hm : mods = new.map (fun kv => ⟨.replace, kv.1, kv.2⟩) := by
        rw [(modlist_ops _ _ _ h).1, List.map_map]
        rfl
      refine some_more l t mods rfl rfl (fun md hmd => ?_) nofun (fun n hn => by cases hn; exact hm)
      rw [hm] at hmd
      obtain ⟨kv, hkv, rfl⟩ := List.mem_map.1 hmd
      exact ⟨rfl, hkv⟩
  | deleteAttrs del =>
    simp only [x, stageOn]
    rcases OverWire.prepare C view peer env lower l t.attrs (del.map Prod.fst) with ⟨l1, e | d1⟩
    · exact none_more (l1, t, .error e) rfl rfl nofun
    · dsimp only
      cases h : deleteModlist lower typeOf d1 del with
      | error e => exact none_more (l1, { t with attrs := d1 }, .error e) rfl rfl nofun
      | ok mods =>
        refine some_more l1 { t with attrs := d1 } mods rfl rfl (fun md hmd => ?_) nofun nofun
        simp only [deleteModlist] at h
        split at h
        · cases h
        · have h1 := (modlist_ops _ _ _ h).1
          rw [h1] at hmd
          obtain ⟨kv, _, rfl⟩ := List.mem_map.1 hmd
          exact rfl
  | refresh attrs =>
    simp only [x, stageOn]
    rcases OverWire.refresh C view peer env lower l t.attrs attrs with ⟨l1, e | d1⟩
    · exact none_more (l1, t, .error e) rfl rfl nofun
    · exact none_more (l1, { t with attrs := d1 }, .ok ()) rfl rfl (fun _ => ⟨nofun, nofun⟩)

theorem in_range {A : Type} {l : List A} {i : Nat} {a : A} (h : l[i]? = some a) : i < l.length := by
  rcases Nat.lt_or_ge i l.length with h' | h'
  · exact h'
  · rw [List.getElem?_eq_none h'] at h; cases h

end
end TranP

open TranP

/-- **C95 (staging).** Whatever the other side sends: a call on a transaction changes that transaction only, and adds to the end of its staged list only changes of its own kind; `modify` and `replace_attrs` that return have
added exactly the changes given, in order, and `refresh` adds none. -/
theorem c95_stage {V R S : Type} (peer : Peer S) (lower : Str → Str) (typeOf : TypeOf AVal) (s : TLink Received.Decoded S) (i : Nat) (t : Trans AVal) (ht : s.trans[i]? = some t) (env : OverWire.Env V R) (c : Stage) :
    let r := s.step codec (fun d => d.1.1) peer lower typeOf (.stage i env c)
    r.1.orig = s.orig ∧ (∀ j, j ≠ i → r.1.trans[j]? = s.trans[j]?) ∧
    ∃ t' more, r.1.trans[i]? = some t' ∧ t'.parent = t.parent ∧ t'.modlist = t.modlist ++ more ∧ (∀ md ∈ more, Stages c md) ∧
      (r.2 = .ok () → (∀ mods, c = .modify mods → more = mods) ∧ (∀ new, c = .replaceAttrs new → more = new.map (fun kv => ⟨.replace, kv.1, kv.2⟩))) := by
  intro r
  obtain ⟨h1, more, h2, h3, h4⟩ := stage_more codec (fun d => d.1.1) peer lower typeOf env s.link t c
  have hr : r = ({ s with link := (stageOn codec (fun d => d.1.1) peer lower typeOf env s.link t c).1, trans := s.trans.set i (stageOn codec (fun d => d.1.1) peer lower typeOf env s.link t c).2.1 },
      (stageOn codec (fun d => d.1.1) peer lower typeOf env s.link t c).2.2) := by
    simp only [r, TLink.step, ht]
  rw [hr]
  exact ⟨rfl, fun j hj => List.getElem?_set_ne (fun h => hj h.symm), _, more, List.getElem?_set_self (in_range ht), h1, h2, h3, h4⟩

/-- **C95 (begin).** A transaction begun on the object, or a checkpoint begun on a transaction, starts with nothing staged and with the attributes of what it was begun on; nothing is sent and nothing else changes. -/
theorem c95_begin {V R S : Type} (peer : Peer S) (lower : Str → Str) (typeOf : TypeOf AVal) (s : TLink Received.Decoded S) (parent : Option Nat) (base : AttrsDict AVal)
    (hb : match parent with | none => base = s.orig | some p => ∃ t, s.trans[p]? = some t ∧ base = t.attrs) (hi : CIDict.Inv lower base) (hns : NoStale lower base) :
    let r := s.step codec (fun d => d.1.1) peer lower typeOf (.begin parent : TCall V R)
    r.2 = .ok () ∧ r.1.link = s.link ∧ r.1.orig = s.orig ∧ ∃ t', r.1.trans = s.trans ++ [t'] ∧ t'.parent = parent ∧ t'.modlist = [] ∧
      ∀ a, AttrsDict.getAttr lower t'.attrs a = AttrsDict.getAttr lower base a := by
  intro r
  obtain ⟨k1, k2⟩ := copy_same lower base hi hns
  have hcopy : ∀ a, AttrsDict.getAttr lower (copyAttrs lower base) a = AttrsDict.getAttr lower base a := by
    intro a
    rw [getAttr_abs lower _ k1, getAttr_abs lower _ hi]
    exact k2 _
  cases parent with
  | none =>
    dsimp only at hb
    subst hb
    exact ⟨rfl, rfl, rfl, _, rfl, rfl, rfl, hcopy⟩
  | some p =>
    obtain ⟨t, ht, rfl⟩ := hb
    simp only [r, TLink.step, ht]
    exact ⟨trivial, trivial, trivial, _, rfl, rfl, rfl, hcopy⟩

/-- **C95 (checkpoints).** Committing a checkpoint sends nothing and adds its staged changes, in order, to the end of those of the transaction it was begun on, unless the validators reject them: then it raises and that transaction is
as it was. If it returns nothing is staged in the checkpoint any more, if it raises the same changes still are. No other transaction is affected, nor is the object. -/
theorem c95_checkpoint {V R S : Type} (peer : Peer S) (lower : Str → Str) (typeOf : TypeOf AVal) (s : TLink Received.Decoded S) (i p : Nat) (t tp : Trans AVal) (ht : s.trans[i]? = some t) (hp : t.parent = some p)
    (htp : s.trans[p]? = some tp) (hne : i ≠ p) (env : OverWire.Env V R) :
    let r := s.step codec (fun d => d.1.1) peer lower typeOf (.commit i env)
    r.1.link = s.link ∧ r.1.orig = s.orig ∧ (∀ j, j ≠ i → j ≠ p → r.1.trans[j]? = s.trans[j]?) ∧
    (∃ tp', r.1.trans[p]? = some tp' ∧ tp'.parent = tp.parent ∧
      ((tp' = tp ∧ ∃ e, r.2 = .error e ∧ runValidation env.obj.validators (env.obj.dn, t.modlist, some tp.attrs) = .error e) ∨
        (runValidation env.obj.validators (env.obj.dn, t.modlist, some tp.attrs) = .ok () ∧ tp'.modlist = tp.modlist ++ t.modlist))) ∧
    ∃ t', r.1.trans[i]? = some t' ∧ t'.parent = t.parent ∧ t'.attrs = t.attrs ∧ (r.2 = .ok () → t'.modlist = []) ∧ ∀ e, r.2 = .error e → t'.modlist = t.modlist := by
  obtain ⟨par, ml, ats⟩ := t
  obtain rfl : par = some p := hp
  intro r
  have hr : r = (TLink.mk s.link s.orig ((s.trans.set p (transModify lower typeOf env.obj tp ml).1).set i
      (Trans.mk (some p) (match (transModify lower typeOf env.obj tp ml).2 with | .ok _ => [] | .error _ => ml) ats)), (transModify lower typeOf env.obj tp ml).2) := by
    simp only [r, TLink.step, ht, htp]
    rfl
  obtain ⟨k1, k2⟩ := trans_staged lower typeOf env.obj tp ml
  have hi : i < (s.trans.set p (transModify lower typeOf env.obj tp ml).1).length := by
    rw [List.length_set]; exact in_range ht
  rw [hr]
  refine ⟨rfl, rfl, fun j h1 h2 => ?_, ⟨_, ?_, k1, k2⟩, _, List.getElem?_set_self hi, rfl, rfl, fun h => ?_, fun e h => ?_⟩
  · dsimp only
    rw [List.getElem?_set_ne (fun h => h1 h.symm), List.getElem?_set_ne (fun h => h2 h.symm)]
  · dsimp only
    rw [List.getElem?_set_ne hne, List.getElem?_set_self (in_range htp)]
  · dsimp only at h ⊢
    rw [h]
  · dsimp only at h ⊢
    rw [h]

/-- **C95 (leaving).** Leaving the context of a transaction or checkpoint discards what it has staged; nothing is sent, and nothing else changes. -/
theorem c95_exit {V R S : Type} (peer : Peer S) (lower : Str → Str) (typeOf : TypeOf AVal) (s : TLink Received.Decoded S) (i : Nat) (t : Trans AVal) (ht : s.trans[i]? = some t) :
    let r := s.step codec (fun d => d.1.1) peer lower typeOf (.exit i : TCall V R)
    r.2 = .ok () ∧ r.1.link = s.link ∧ r.1.orig = s.orig ∧ (∀ j, j ≠ i → r.1.trans[j]? = s.trans[j]?) ∧ r.1.trans[i]? = some { t with modlist := [] } := by
  intro r
  simp only [r, TLink.step, ht]
  exact ⟨trivial, trivial, trivial, fun j hj => List.getElem?_set_ne (fun h => hj h.symm), List.getElem?_set_self (in_range ht)⟩

/-- **C95 (reading again in a transaction).** `refresh` of a transaction reads the entry as it is on the server: where the server has values, the transaction shows exactly these and no longer its own staged changes of
the attribute; where the server has none, it goes on showing what it showed (or nothing, if the server lists the attribute without values). What is staged stays staged, and the entry is not changed. A `refresh` that raises leaves the transaction as it was. -/
theorem c95_refresh {V R S : Type} {lower : Str → Str} {mo : Str → Bytes → Bytes → Bool} {entry : S → Spec.Entry Bytes} {peer : Peer S} (typeOf : TypeOf AVal) (env : OverWire.Env V R)
    (hconf : Laurelin.Spec.OverWireS.Conforms lower mo env.obj.dn entry peer) (s : TLink Received.Decoded S) (hr : SessionP.Ready s.link.st) (i : Nat) (t : Trans AVal) (ht : s.trans[i]? = some t)
    (hi : CIDict.Inv lower t.attrs) (attrs : List Str) :
    let r := s.step codec (fun d => d.1.1) peer lower typeOf (.stage i env (.refresh attrs))
    entry r.1.link.peer = entry s.link.peer ∧ SessionP.Ready r.1.link.st ∧ r.1.orig = s.orig ∧
    (∀ e, r.2 = .error e → r.1.trans = s.trans) ∧
    (r.2 = .ok () → ∃ t', r.1.trans[i]? = some t' ∧ t'.modlist = t.modlist ∧ t'.parent = t.parent ∧
      ∀ a ∈ attrs, (entry s.link.peer (lower a) ≠ [] → ShowsExactly lower (entry s.link.peer) t'.attrs a) ∧
        (entry s.link.peer (lower a) = [] → AttrsDict.getAttr lower t'.attrs a = AttrsDict.getAttr lower t.attrs a ∨ AttrsDict.getAttr lower t'.attrs a = [])) := by
  intro r
  obtain ⟨h1, h2, h3⟩ := OverWireP.fetch_step lower mo entry peer env _ hconf rfl s.link hr attrs
  simp only [r, TLink.step, ht, stageOn, OverWire.refresh]
  revert h1 h2 h3
  rcases fetch codec (fun d => d.1.1) peer env s.link attrs with ⟨l', e | got⟩
  · intro h1 h2 _
    refine ⟨h2, h1, trivial, fun _ _ => ?_, nofun⟩
    apply List.ext_getElem?
    intro j
    by_cases hj : j = i
    · rw [hj, List.getElem?_set_self (TranP.in_range ht), ht]
    · exact List.getElem?_set_ne (fun h => hj h.symm)
  · intro h1 h2 h3
    obtain ⟨k1, k2⟩ := h3 got rfl
    simp only [OverWireP.updateCI_entry t.attrs got k1]
    refine ⟨h2, h1, trivial, nofun, fun _ => ⟨_, List.getElem?_set_self (TranP.in_range ht), rfl, rfl, fun a ha => ?_⟩⟩
    have hu := update_abs lower got t.attrs hi (OverWireP.seen (entry s.link.peer)) k2.sound
    have key : (∃ kv ∈ got, lower kv.1 = lower a) → AttrsDict.getAttr lower (CIDict.update lower t.attrs got) a = (entry s.link.peer (lower a)).map shown := by
      intro hex
      rw [getAttr_abs lower _ hu.1, (hu.2 _).1 hex]
      rfl
    refine ⟨fun hne => ?_, fun he => ?_⟩
    · have hne' : OverWireP.seen (entry s.link.peer) (lower a) ≠ [] := by
        intro h
        exact hne (List.map_eq_nil_iff.1 h)
      show Pairwise2 _ _ _
      rw [key (k2.complete a ha hne')]
      exact OverWireP.shows_map _
    · by_cases hex : ∃ kv ∈ got, lower kv.1 = lower a
      · exact .inr (by rw [key hex, he]; rfl)
      · refine .inl ?_
        show AttrsDict.getAttr lower (CIDict.update lower t.attrs got) a = _
        rw [getAttr_abs lower _ hu.1, (hu.2 _).2 hex, ← getAttr_abs lower _ hi]

set_option maxRecDepth 100000 in
/-- **C95 (a refreshed transaction does not show its changes).** `cn` is replaced in the transaction, then read again: the transaction shows the server's two values, and would still replace them. -/
theorem c95_refresh_hides :
    let s1 := TranP.runS TranP.start [.begin none, .stage 0 OverWireP.sampleEnv (.replaceAttrs [(str "cn", .list [.text (str "q")])]), .stage 0 OverWireP.sampleEnv (.refresh [str "CN"])]
    s1.trans.map (fun t => AttrsDict.getAttr lc t.attrs (str "cn")) = [[.text (str "x"), .raw [255]]] ∧ s1.trans.map (fun t => t.modlist.map (fun md => (md.op, md.attr))) = [[(.replace, str "cn")]] ∧
    s1.link.peer.2.length = 1 := by
  decide +kernel

/-! A run on octets: a transaction with one change, a checkpoint with another one, committed into it; a second checkpoint is left without commit. -/

def TranP.nested : List (TCall Unit Unit) :=
  [.begin none, .stage 0 OverWireP.sampleEnv (.replaceAttrs [(str "l", .list [.text (str "z")])]), .begin (some 0),
   .stage 1 OverWireP.sampleEnv (.modify [⟨.add, str "sn", .list [.text (str "s")]⟩]), .commit 1 OverWireP.sampleEnv, .begin (some 0),
   .stage 2 OverWireP.sampleEnv (.replaceAttrs [(str "l", .list [.text (str "no")])]), .exit 2]

example : let f := TranP.runS TranP.start TranP.nested
    f.trans.map (fun t => t.parent) = [none, some 0, some 0] ∧ f.trans.map (fun t => t.modlist.map (fun md => (md.op, md.attr))) = [[(.replace, str "l"), (.add, str "sn")], [], []] ∧
    f.trans.map (fun t => AttrsDict.getAttr lc t.attrs (str "l")) = [[.text (str "z")], [.text (str "z")], [.text (str "no")]] ∧ f.link.peer.2 = [] ∧
    f.trans.map (fun t => AttrsDict.getAttr lc t.attrs (str "sn")) = [[.text (str "s")], [.text (str "s")], [.text (str "s")]] := by
  decide +kernel

end Laurelin.Props
