import Verif.Spec.DescWire
import Verif.Props.DescAttrs
import Verif.Props.ObjectLife
/-!
C104: structured descriptions, down to the octets.
-/
namespace Laurelin.Props
open Laurelin Codec Asn1 Rfc4511 Spec
namespace DescW
open DescAttrs Spec.DescS WireP WireR OverWire OverWireP EntP ObjP PatP
open Laurelin.Spec.OverWireS (Faithful Becomes)
open Laurelin.Spec.DirectoryS (Directory Serves SearchFor Shown)
open Laurelin.Spec.EntriesS (Entries replacing)
open Laurelin.Spec.ObjectS (Tree Changed Mirrors)
open Laurelin.Spec.DescWire

variable {V R S D : Type} {dir : Directory D} {contents : S → D} {peer : Peer S} {lower norm : Str → Str} {mo : Str → Bytes → Bytes → Bool} {under : Str → Str → Prop} {system : Str → Prop}
  {at_ : D → Str → Option (Spec.Entry Bytes)} {typeOf : TypeOf AVal} {G : Str → AVal → Prop}

/-- `refresh_missing` of one attribute -/
theorem missing_step (h : Setting dir contents peer lower norm mo under system at_ typeOf G) (env : Api.Env V R) (hlow : env.lower = lower) (strict : Bool) (l : Link Received.Decoded S) (hr : SessionP.Ready l.st)
    (o : Api.Obj) (ho : Alive lower norm at_ G (contents l.peer) o) (a : Str) (t : Api.Turn Received.Decoded S)
    (ht : t = if AttrsDict.has env.lower o.attrs a then ⟨l, o, .ok .done⟩ else Api.act codec (fun d => d.1.1) peer env typeOf strict l o (.refresh [a])) :
    t.obj.dn = o.dn ∧ (∀ x, at_ (contents t.link.peer) x = at_ (contents l.peer) x) ∧ SessionP.Ready t.link.st ∧ Alive lower norm at_ G (contents t.link.peer) t.obj ∧
    ∀ r, t.result = .ok r → ∃ dn e, o.dn = some dn ∧ at_ (contents l.peer) (norm dn) = some e ∧ AttrsDict.getAttr lower t.obj.attrs a = seen e (lower a) := by
  subst hlow
  by_cases hh : AttrsDict.has env.lower o.attrs a = true
  · rw [if_pos hh] at ht
    subst ht
    refine ⟨rfl, fun _ => rfl, hr, ho, fun r _ => ?_⟩
    have hne := (AttrsDict.has_iff env.lower o.attrs a).1 hh
    unfold Alive at ho
    cases hdn : o.dn with
    | none => rw [hdn] at ho; exact absurd (ho _) hne
    | some dn =>
      rw [hdn] at ho
      obtain ⟨e, he, hv⟩ := ho
      exact ⟨dn, e, rfl, he, hv.view _ hne⟩
  · rw [if_neg hh] at ht
    obtain ⟨k1, k2, k3, _⟩ := any_step h ⟨env, strict, .refresh [a], none⟩ rfl l hr o ho (fun _ _ _ _ => trivial)
    dsimp only at k1 k2 k3
    rw [← ht] at k1 k2 k3
    clear ht
    rcases t with ⟨l', o', x | r⟩
    · exact ⟨k1.2, k1.1, k2, k3, nofun⟩
    · obtain ⟨dn, hdn, _, q1, q2, e, he, hs⟩ := k1
      exact ⟨q1, q2, k2, k3, fun _ _ => ⟨dn, e, hdn, he, agrees_of e _ _ (hs _ (by simp))⟩⟩

theorem texts_map (vs : List AVal) (ds : List Str) (h : Api.descTexts vs = .ok ds) : vs = ds.map .text := by
  induction vs generalizing ds with
  | nil => cases h; rfl
  | cons v vs ih =>
    cases v with
    | raw b => cases h
    | text t =>
      simp only [Api.descTexts] at h
      split at h
      · cases h
      · rename_i ts hts
        cases h
        rw [List.map_cons, ← ih ts hts]

theorem bytes_of_seen (e : Spec.Entry Bytes) (x : Str) (ds : List Str) (h : seen e x = ds.map .text) : e x = ds.map utf8Enc := by
  have : (seen e x).map AVal.bytes = ds.map utf8Enc := by
    rw [h, List.map_map]; rfl
  rw [← this, seen, List.map_map]
  conv => lhs; rw [← List.map_id (e x)]
  exact List.map_congr_left (fun b _ => (bytes_shown b).symm)

/-- the extension is made -/
theorem open_step (h : Setting dir contents peer lower norm mo under system at_ typeOf G) (env : Api.Env V R) (hlow : env.lower = lower) (strict : Bool) (l : Link Received.Decoded S) (hr : SessionP.Ready l.st)
    (o : Api.Obj) (ho : Alive lower norm at_ G (contents l.peer) o) :
    let p := Api.descOpen codec (fun d => d.1.1) peer env typeOf strict l o
    p.2.1.dn = o.dn ∧ (∀ x, at_ (contents p.1.peer) x = at_ (contents l.peer) x) ∧ SessionP.Ready p.1.st ∧ Alive lower norm at_ G (contents p.1.peer) p.2.1 ∧
    ∀ st, p.2.2 = .ok st → ∃ dn e ds, o.dn = some dn ∧ at_ (contents l.peer) (norm dn) = some e ∧ e (lower descAttr) = ds.map utf8Enc ∧ st = readDesc lower ds := by
  intro p
  have key := missing_step h env hlow strict l hr o ho descAttr _ rfl
  simp only [p, Api.descOpen]
  revert key
  generalize (if AttrsDict.has env.lower o.attrs descAttr then (⟨l, o, .ok .done⟩ : Api.Turn Received.Decoded S) else Api.act codec (fun d => d.1.1) peer env typeOf strict l o (.refresh [descAttr])) = t
  rcases t with ⟨l', o', x | r⟩
  · rintro ⟨k1, k2, k3, k4, _⟩
    exact ⟨k1, k2, k3, k4, nofun⟩
  · rintro ⟨k1, k2, k3, k4, k5⟩
    dsimp only
    subst hlow
    cases hd : Api.descTexts (AttrsDict.getAttr env.lower o'.attrs descAttr) with
    | error x => exact ⟨k1, k2, k3, k4, nofun⟩
    | ok ds =>
      refine ⟨k1, k2, k3, k4, fun st hst => ?_⟩
      cases hst
      obtain ⟨dn, e, hdn, he, hg⟩ := k5 _ rfl
      refine ⟨dn, e, ds, hdn, he, bytes_of_seen e _ ds ?_, rfl⟩
      rw [← hg]
      exact texts_map _ _ hd

/-- nothing is cleared -/
theorem no_clear (e : Spec.Entry AVal) (a : Str) (vs : List AVal) (hv : vs ≠ []) : ClearsPresent lower (onBytes mo) e (Props.meant [⟨.replace, a, .list vs⟩]) :=
  ⟨fun _ h => absurd h hv, fun _ _ => trivial⟩

/-- one change -/
theorem change_step (h : Setting dir contents peer lower norm mo under system at_ typeOf G) (env : Api.Env V R) (hlow : env.lower = lower) (strict : Bool) (order : List Str → List Str) (l : Link Received.Decoded S)
    (hr : SessionP.Ready l.st) (o : Api.Obj) (dn : Str) (hdn : o.dn = some dn) (ho : Alive lower norm at_ G (contents l.peer) o) (st : Desc) (op : DOp)
    (hne : render order { st with dict := apply lower st.dict op } ≠ []) (hG : ∀ t ∈ render order { st with dict := apply lower st.dict op }, G descAttr (.text t)) :
    let r := Api.descChange codec (fun d => d.1.1) peer env typeOf order strict l o st op
    r.desc = { st with dict := apply lower st.dict op } ∧ r.obj.dn = some dn ∧ SessionP.Ready r.link.st ∧ Alive lower norm at_ G (contents r.link.peer) r.obj ∧
    match r.result with
    | .error _ => ∀ x, at_ (contents r.link.peer) x = at_ (contents l.peer) x
    | .ok _ => Changed at_ (contents l.peer) (contents r.link.peer) (norm dn) (fun e e' => e' (lower descAttr) = (render order { st with dict := apply lower st.dict op }).map utf8Enc ∧ ∀ y, y ≠ lower descAttr → e' y = e y) := by
  subst hlow
  intro r
  simp only [r, Api.descChange, hdn]
  generalize hvs : render order { st with dict := apply env.lower st.dict op } = vs at hne hG
  obtain ⟨k1, k2, k3, _⟩ := any_step h ⟨env, strict, .replaceAttrs [(descAttr, .list (vs.map .text))], none⟩ rfl l hr o ho (fun dn' e hdn' he => by
    refine ⟨by simp, ?_⟩
    have hn : vs.map AVal.text ≠ [] := fun hx => hne (List.map_eq_nil_iff.1 hx)
    constructor
    · intro md hmd ha
      simp only [List.map_cons, List.map_nil, List.mem_singleton] at hmd
      subst hmd
      cases ha
    · intro md hmd v hv
      simp only [List.map_cons, List.map_nil, List.mem_singleton] at hmd
      subst hmd
      obtain ⟨w, hw, rfl⟩ := List.mem_map.1 hv
      exact hG w hw
    · intro _ md hmd hx
      simp only [List.map_cons, List.map_nil, List.mem_singleton] at hmd
      subst hmd
      simp only [Vals.list.injEq] at hx
      exact hn hx
    · exact no_clear _ _ _ hn
    · intro md hmd
      simp only [List.map_cons, List.map_nil, List.mem_singleton] at hmd
      subst hmd
      exact .inr ⟨rfl, hn⟩)
  dsimp only at k1 k2 k3
  revert k1 k2 k3
  generalize Api.act codec (fun d => d.1.1) peer env typeOf strict l o (.replaceAttrs [(descAttr, .list (vs.map .text))]) = t
  rcases t with ⟨l', o', x | ret⟩
  · rintro ⟨q1, q2⟩ k2 k3
    exact ⟨trivial, q2.trans hdn, k2, k3, q1⟩
  · rintro ⟨dn', q1, _, q2, q3⟩ k2 k3
    rw [hdn] at q1
    cases q1
    refine ⟨trivial, q2.trans hdn, k2, k3, ?_⟩
    obtain ⟨⟨e, e', he, he', hb1, hb2⟩, hother⟩ := q3
    refine ⟨⟨e, e', he, he', ?_, fun y hy => hb2 y (fun kv hkv => ?_)⟩, hother⟩
    · have := hb1 (descAttr, .list (vs.map .text)) (by simp)
      rw [this]
      simp only [replacing, List.map_map]
      rfl
    · simp only [List.mem_singleton] at hkv
      subst hkv
      exact fun hx => hy hx.symm

theorem program_pre {ds : List Str} {c : Content} {ops pre : List DOp} (h : Program lower ds c ops) (hp : pre <+: ops) : Program lower ds c pre :=
  ⟨fun op hop => h.keys op (hp.subset hop), fun attrs ha a haa b hb => h.spelled attrs (hp.subset ha) a haa b (hb.imp id (fun ⟨op, ho, hk⟩ => ⟨op, hp.subset ho, hk⟩)),
    fun pre' h' => h.left pre' (h'.trans hp)⟩

theorem says_nil {x : Str} {ds l : List Str} (h : Says lower x ds l) : ds = [] → l = [] := by
  cases h <;> simp

/-- what is written after a program -/
theorem written {order : List Str → List Str} (hord : ∀ l u, u ∈ order l ↔ u ∈ l) {ds : List Str} {c : Content} (hc : ∀ x, Says lower x ds (c x)) {ops : List DOp} (h : Program lower ds c ops) (hne : ops ≠ []) :
    render order (after lower (readDesc lower ds) ops) ≠ [] ∧ (∀ x, Says lower x (render order (after lower (readDesc lower ds) ops)) (ops.foldl (asked lower) c x)) ∧
    (∀ u, (u ∈ render order (after lower (readDesc lower ds) ops) ∧ '=' ∉ u) ↔ (u ∈ ds ∧ '=' ∉ u)) ∧ ∀ k, AttrsDict.getAttr lower (after lower (readDesc lower ds) ops).dict k = ops.foldl (asked lower) c (lower k) := by
  obtain ⟨h1, h2, h3⟩ := c52_history_partial lower order hord ds ops h.keys h.spelled c hc
  refine ⟨fun hx => ?_, h1, h2, h3⟩
  rcases h.left ops (List.prefix_refl _) hne with ⟨x, hx'⟩ | ⟨u, hu, hu'⟩
  · exact hx' (says_nil (h1 x) hx)
  · have := ((h2 u).2 ⟨hu, hu'⟩).1
    rw [hx] at this
    cases this

theorem after_snoc (st : Desc) (ops : List DOp) (op : DOp) : after lower st (ops ++ [op]) = { after lower st ops with dict := apply lower (after lower st ops).dict op } := by
  simp only [after, List.foldl_append, List.foldl_cons, List.foldl_nil]

/-- the values written conform -/
theorem written_good {order : List Str → List Str} (e : Spec.Entry Bytes) (hg : GoodEntry lower G (seen e)) {ds : List Str} (hds : e (lower descAttr) = ds.map utf8Enc) (hG : ∀ t, '=' ∈ t → G descAttr (.text t))
    (ops : List DOp) (hu : ∀ u, (u ∈ render order (after lower (readDesc lower ds) ops) ∧ '=' ∉ u) ↔ (u ∈ ds ∧ '=' ∉ u)) :
    ∀ t ∈ render order (after lower (readDesc lower ds) ops), G descAttr (.text t) := by
  intro t ht
  by_cases h : '=' ∈ t
  · exact hG t h
  · have := ((hu t).1 ⟨ht, h⟩).1
    refine hg descAttr _ ?_
    simp only [seen, hds, List.map_map, List.mem_map, Function.comp]
    refine ⟨t, this, ?_⟩
    exact shown_bytes (.text t) rfl

theorem run_step (h : Setting dir contents peer lower norm mo under system at_ typeOf G) (order : List Str → List Str) (hord : ∀ l u, u ∈ order l ↔ u ∈ l) (hG : ∀ t, '=' ∈ t → G descAttr (.text t)) (dn : Str)
    (e0 : Spec.Entry Bytes) (hg0 : GoodEntry lower G (seen e0)) (ds : List Str) (hds : e0 (lower descAttr) = ds.map utf8Enc) (c : Content) (hc : ∀ x, Says lower x ds (c x)) :
    ∀ (hist : List (Api.Env V R × Bool × DOp)) (pre : List DOp) (l : Link Received.Decoded S) (o : Api.Obj), (∀ s ∈ hist, s.1.lower = lower) → Program lower ds c (pre ++ hist.map (fun s => s.2.2)) → SessionP.Ready l.st →
      o.dn = some dn → Alive lower norm at_ G (contents l.peer) o →
      let r := Api.descRun codec (fun d => d.1.1) peer typeOf order l o (after lower (readDesc lower ds) pre) hist
      r.2.2 = after lower (readDesc lower ds) (pre ++ hist.map (fun s => s.2.2)) ∧ SessionP.Ready r.1.st ∧ r.2.1.dn = some dn ∧ Alive lower norm at_ G (contents r.1.peer) r.2.1 := by
  intro hist
  induction hist with
  | nil =>
    intro pre l o _ _ hr hdn ho
    exact ⟨by simp [Api.descRun], hr, hdn, ho⟩
  | cons s hist ih =>
    intro pre l o hlow hp hr hdn ho
    obtain ⟨env, strict, op⟩ := s
    have hp' : Program lower ds c (pre ++ [op]) := program_pre hp ⟨hist.map (fun s => s.2.2), by simp⟩
    obtain ⟨w1, _, w3, _⟩ := written hord hc hp' (by simp)
    have w4 := written_good e0 hg0 hds hG (pre ++ [op]) w3
    rw [after_snoc] at w1 w4
    obtain ⟨k1, k2, k3, k4, _⟩ := change_step h env (hlow (env, strict, op) (by simp)) strict order l hr o dn hdn ho (after lower (readDesc lower ds) pre) op w1 w4
    have := ih (pre ++ [op]) _ _ (fun s hs => hlow s (by simp [hs])) (by simpa using hp) k3 k2 k4
    rw [after_snoc, ← k1] at this
    simpa [Api.descRun] using this

end DescW

section
open DescAttrs Spec.DescS WireP WireR OverWire OverWireP EntP ObjP PatP DescW
open Laurelin.Spec.DirectoryS (Directory Serves)
open Laurelin.Spec.ObjectS (Changed Mirrors)
open Laurelin.Spec.DescWire
variable {V R S D : Type} {dir : Directory D} {contents : S → D} {peer : Peer S} {norm : Str → Str} {mo : Str → Bytes → Bytes → Bool} {under : Str → Str → Prop} {system : Str → Prop}
  {at_ : D → Str → Option (Spec.Entry Bytes)} {typeOf : TypeOf AVal} {G : Str → AVal → Prop}

/-- **C104.** Against any server that serves a directory, for an object that shows its entry: using `descattrs` for the first time changes nothing and, if it does not raise, reads what the entry's description says.
After any program of modifications, whatever became of each of them, a further one raises and no entry has changed, or the entry's description says exactly what all of them have asked for and has the unstructured
values it had, and nothing else has changed; the extension shows this, and the object shows its entry. -/
theorem c104_history_partial (env : Api.Env V R) (h : Setting dir contents peer env.lower norm mo under system at_ typeOf G) (hG : ∀ t, '=' ∈ t → G descAttr (.text t)) (order : List Str → List Str)
    (hord : ∀ l u, u ∈ order l ↔ u ∈ l) (strict : Bool) (l : Link Received.Decoded S) (hr : SessionP.Ready l.st) (o : Api.Obj) (ho : Alive env.lower norm at_ G (contents l.peer) o) :
    let p := Api.descOpen codec (fun d => d.1.1) peer env typeOf strict l o
    (∀ x, at_ (contents p.1.peer) x = at_ (contents l.peer) x) ∧ p.2.1.dn = o.dn ∧ SessionP.Ready p.1.st ∧ Mirrors env.lower norm at_ (contents p.1.peer) p.2.1 ∧
    ∀ st, p.2.2 = .ok st → ∃ dn e ds, o.dn = some dn ∧ at_ (contents l.peer) (norm dn) = some e ∧ e (env.lower descAttr) = ds.map utf8Enc ∧
      ∀ c, (∀ x, Says env.lower x ds (c x)) → (∀ k, AttrsDict.getAttr env.lower st.dict k = c (env.lower k)) ∧
      ∀ (hist : List (Api.Env V R × Bool × DOp)) (env' : Api.Env V R) (strict' : Bool) (op : DOp), (∀ s ∈ hist, s.1.lower = env.lower) → env'.lower = env.lower →
        Program env.lower ds c (hist.map (fun s => s.2.2) ++ [op]) →
        let s := Api.descRun codec (fun d => d.1.1) peer typeOf order p.1 p.2.1 st hist
        let r := Api.descChange codec (fun d => d.1.1) peer env' typeOf order strict' s.1 s.2.1 s.2.2 op
        ChangeMeans env.lower norm at_ ds c (hist.map (fun s => s.2.2) ++ [op]) dn (contents s.1.peer) r.result (contents r.link.peer) ∧
        (∀ k, AttrsDict.getAttr env.lower r.desc.dict k = (hist.map (fun s => s.2.2) ++ [op]).foldl (asked env.lower) c (env.lower k)) ∧
        r.obj.dn = some dn ∧ SessionP.Ready r.link.st ∧ Mirrors env.lower norm at_ (contents r.link.peer) r.obj := by
  intro p
  obtain ⟨k1, k2, k3, k4, k5⟩ := open_step h env rfl strict l hr o ho
  refine ⟨k2, k1, k3, alive_mirrors k4, fun st hst => ?_⟩
  obtain ⟨dn, e, ds, hdn, he, hds, rfl⟩ := k5 st hst
  refine ⟨dn, e, ds, hdn, he, hds, fun c hc => ⟨fun k => (c52_read env.lower ds).1 k _ (hc _), fun hist env' strict' op hlow hlow' hp => ?_⟩⟩
  intro s r
  have hg := h.good _ _ e he
  obtain ⟨r1, r2, r3, r4⟩ := run_step h order hord hG dn e hg ds hds c hc hist [] p.1 p.2.1 hlow (program_pre hp ⟨[op], by simp⟩) k3 (k1.trans hdn) k4
  simp only [List.nil_append, show after env.lower (readDesc env.lower ds) [] = readDesc env.lower ds from rfl] at r1 r2 r3 r4
  obtain ⟨w1, w2, w3, w5⟩ := written (order := order) hord hc hp (by simp)
  have w4 := written_good e hg hds hG _ w3
  have hst' : s.2.2 = after env.lower (readDesc env.lower ds) (hist.map (fun s => s.2.2)) := r1
  rw [after_snoc, ← hst'] at w1 w2 w3 w4 w5
  obtain ⟨q1, q2, q3, q4, q5⟩ := change_step h env' hlow' strict' order s.1 r2 s.2.1 dn r3 r4 s.2.2 op w1 w4
  refine ⟨?_, ?_, q2, q3, alive_mirrors q4⟩
  · revert q5
    show (match r.result with | .error _ => _ | .ok _ => _) → _
    unfold ChangeMeans
    cases r.result with
    | error x => exact id
    | ok _ =>
      rintro ⟨⟨e1, e2, h1, h2, h3, h4⟩, h5⟩
      exact ⟨⟨e1, e2, h1, h2, ⟨_, h3, w2, w3⟩, h4⟩, h5⟩
  · intro k
    rw [show r.desc = _ from q1]
    exact w5 k

/-- **C104, finding.** The extension writes the unstructured values it has read when it was made: one that the entry has got since, also through the same object, is gone after the next modification. -/
theorem c104_stale (env : Api.Env V R) (h : Setting dir contents peer env.lower norm mo under system at_ typeOf G) (order : List Str → List Str) (hord : ∀ l u, u ∈ order l ↔ u ∈ l) (strict : Bool)
    (l : Link Received.Decoded S) (hr : SessionP.Ready l.st) (o : Api.Obj) (dn : Str) (hdn : o.dn = some dn) (ho : Alive env.lower norm at_ G (contents l.peer) o) (st : Desc) (op : DOp)
    (hne : render order { st with dict := apply env.lower st.dict op } ≠ []) (hG : ∀ t ∈ render order { st with dict := apply env.lower st.dict op }, G descAttr (.text t)) (u : Str) (hu : '=' ∉ u) (hst : u ∉ st.unstructured)
    (hok : (Api.descChange codec (fun d => d.1.1) peer env typeOf order strict l o st op).result = .ok ()) :
    ∃ e', at_ (contents (Api.descChange codec (fun d => d.1.1) peer env typeOf order strict l o st op).link.peer) (norm dn) = some e' ∧ utf8Enc u ∉ e' (env.lower descAttr) := by
  obtain ⟨_, _, _, _, k5⟩ := change_step h env rfl strict order l hr o dn hdn ho st op hne hG
  rw [hok] at k5
  obtain ⟨⟨e, e', _, he', h1, _⟩, _⟩ := k5
  refine ⟨e', he', ?_⟩
  rw [h1]
  intro hm
  obtain ⟨t, ht, heq⟩ := List.mem_map.1 hm
  have := utf8_injective _ _ heq
  subst this
  simp only [render, List.mem_append, List.mem_flatMap, List.mem_map] at ht
  rcases ht with ⟨kv, _, v, _, rfl⟩ | ht
  · exact hu (by simp)
  · exact hst ((hord _ _).1 ht)

/-- **C104 (deleted object).** -/
theorem c104_deleted (peer : Peer S) (env : Api.Env V R) (typeOf : TypeOf AVal) (order : List Str → List Str) (strict : Bool) (l : Link Received.Decoded S) (o : Api.Obj) (hdn : o.dn = none) (st : Desc) (op : DOp) :
    Api.descChange codec (fun d => d.1.1) peer env typeOf order strict l o st op = ⟨l, o, st, .error .runtimeError⟩ := by
  simp only [Api.descChange, hdn]

end

namespace DescW
open DescAttrs Spec.DescS WireP WireR OverWire OverWireP EntP ObjP PatP
open Laurelin.Spec.DirectoryS (Directory Serves)
open Laurelin.Spec.EntriesS (Entries)
open Laurelin.Spec.DescWire

/-- an entry with these descriptions -/
def dsEnt (vs : List Bytes) : Spec.Entry Bytes := fun x => if x = lc descAttr then vs else []
def dsAt : List Bytes → Str → Option (Spec.Entry Bytes) := fun d x => if x = str "o" then some (dsEnt d) else none

def dsDir : Directory (List Bytes) where
  updated d op d' := ∃ cs, op = Spec.OverWireS.modifyOp (str "o") cs ∧ srvModify lc eqb (dsEnt d) cs = .ok (dsEnt d')
  holds _ _ _ _ := False
  finds _ _ _ := False

theorem ds_entries : Entries lc eqb (fun x => x) dsDir dsAt := by
  refine ⟨?_, fun _ _ _ _ _ _ _ _ h => h.elim⟩
  rintro d dn cs d' ⟨cs', h1, h3⟩
  have hdn : dn = str "o" := by
    simp only [Spec.OverWireS.modifyOp, Spec.Wire.Op.modifyRequest.injEq] at h1
    exact utf8_injective _ _ h1.1
  subst hdn
  have := modifyOp_inj _ _ _ h1
  subst this
  exact ⟨dsEnt d, dsEnt d', if_pos rfl, h3, if_pos rfl, fun x hx => by simp only [dsAt, if_neg hx]⟩

def tlv (t : UInt8) (c : Bytes) : Bytes := t :: UInt8.ofNat c.length :: c

def dsOld : List Str := [str "Plain", str "k=1"]
def dsNew : List Bytes := [utf8Enc (str "k=1"), utf8Enc (str "k=2"), utf8Enc (str "Plain")]
def dsBytes : Bytes :=
  tlv 48 ([2, 1, 1] ++ tlv 102 (tlv 4 (utf8Enc (str "o")) ++ tlv 48 (tlv 48 ([10, 1, 2] ++ tlv 48 (tlv 4 (utf8Enc descAttr) ++ tlv 49 (tlv 4 (utf8Enc (str "k=1")) ++ tlv 4 (utf8Enc (str "k=2")) ++ tlv 4 (utf8Enc (str "Plain"))))))))
def dsMsg : Spec.Wire.Message := ⟨1, .modifyRequest (utf8Enc (str "o")) [(2, ⟨utf8Enc descAttr, dsNew⟩)], none⟩
def dsOut (_ : List Bytes) : List Bytes × List Bytes := (dsNew, [[48, 12, 2, 1, 1, 103, 7, 10, 1, 0, 4, 0, 4, 0]])

noncomputable def dsPeer : Peer (List Bytes) := fun s bs => if bs = dsBytes then dsOut s else Classical.choose (c90_server_exists dsDir) s bs

theorem ds_serves : Serves dsDir (fun d => d) dsPeer := by
  have h0 := (Classical.choose_spec (c90_server_exists dsDir)).1
  have ha := WireR.has_enc dsMsg dsBytes (by decide +kernel)
  refine DirP.override h0 dsMsg dsBytes ha.1 ha.2 dsOut ?_ nofun (fun _ h => h.elim)
  intro s resp hresp
  cases hresp
  have hr := WireR.has_enc ⟨1, .modifyResponse (said 0), none⟩ [48, 12, 2, 1, 1, 103, 7, 10, 1, 0, 4, 0, 4, 0] (by decide +kernel)
  refine ⟨said 0, ⟨_, .cons hr .nil, by simp only [dsOut]; decide, rfl⟩, .inl ⟨rfl, [⟨.replace, descAttr, dsNew⟩], rfl, ?_⟩⟩
  simp only [srvModify, srvChange, dsOut, Except.ok.injEq]
  funext x
  simp only [Entry.put, dsEnt]
  by_cases hx : x = lc descAttr
  · rw [if_pos hx, if_pos hx]
  · rw [if_neg hx, if_neg hx, if_neg hx]

theorem ds_setting : Setting dsDir (fun d => d) dsPeer lc (fun x => x) eqb (fun _ _ => False) (fun _ => False) dsAt (fun _ => .ok (.default : AttrType AVal)) (fun _ v => Spec.Wire.Shows v.bytes v) :=
  ⟨ds_serves, ds_entries, ⟨fun _ _ _ _ _ h => (by obtain ⟨_, h, _⟩ := h; cases h), fun _ _ _ _ _ _ _ _ h => h.elim⟩,
    ⟨fun _ _ _ h => (by obtain ⟨_, h, _⟩ := h; cases h), fun _ _ _ _ _ _ _ _ _ _ _ h => (by obtain ⟨_, h, _⟩ := h; cases h), fun _ _ _ _ _ _ _ _ _ h => h.elim⟩,
    octets_decide, ⟨fun _ _ _ => rfl, fun _ _ _ _ h => h⟩, fun _ _ h => h, fun _ _ e _ => seen_good lc e⟩

/-- the object shows its description -/
def dsObj : Api.Obj := ⟨some (str "o"), CIDict.update lc CIDict.empty [(descAttr, dsOld.map .text)], .sub, none⟩

theorem ds_alive : Alive lc (fun x => x) dsAt (fun _ v => Spec.Wire.Shows v.bytes v) (dsOld.map utf8Enc) dsObj := by
  refine found_view (fun _ _ e _ => seen_good lc e) _ dsObj (str "o", [(descAttr, dsOld.map utf8Enc)]) [descAttr] _ (if_pos rfl) ?_ _ (.cons ⟨rfl, .cons rfl (.cons rfl .nil)⟩ .nil)
  constructor
  · decide +kernel
  · decide +kernel
  · decide +kernel

def dsOp : DOp := .add [(str "k", [str "2"])]

noncomputable def dsOpened := Api.descOpen codec (fun d => d.1.1) dsPeer DirP.sampleEnv (fun _ => .ok (.default : AttrType AVal)) true ⟨Session.St.init, dsOld.map utf8Enc⟩ dsObj
noncomputable def dsChanged (st : Desc) := Api.descChange codec (fun d => d.1.1) dsPeer DirP.sampleEnv (fun _ => .ok (.default : AttrType AVal)) id true dsOpened.1 dsOpened.2.1 st dsOp

theorem ds_opened : dsOpened.2.2 = .ok (readDesc lc dsOld) := rfl

def isOk : Except Err Unit → Bool
  | .ok _ => true
  | .error _ => false

set_option maxRecDepth 100000 in
theorem ds_changed : isOk (dsChanged (readDesc lc dsOld)).result = true := by decide +kernel

/-- what the entry says -/
def dsContent : Content := fun x => if x = str "k" then [str "1"] else []

theorem ds_says (x : Str) : Says lc x dsOld (dsContent x) := by
  refine .unstructured (by decide) ?_
  by_cases hx : x = str "k"
  · rw [show dsContent x = [str "1"] from if_pos hx]
    exact .here (key := str "k") ⟨rfl, by decide⟩ (by rw [hx]; decide) .nil
  · rw [show dsContent x = [] from if_neg hx]
    exact .other (key := str "k") (v := str "1") ⟨rfl, by decide⟩ (fun h => hx (by rw [← h]; decide)) .nil

theorem ds_program : Program lc dsOld dsContent [dsOp] := by
  constructor
  · intro op hop k hk
    cases List.mem_singleton.1 hop
    cases List.mem_singleton.1 hk
    decide
  · intro attrs h
    cases List.mem_singleton.1 h
  · intro pre _ _
    exact .inr ⟨str "Plain", by decide, by decide⟩

/-- the hypotheses are met, the extension opens, and the modification returns -/
example : isOk (dsChanged (readDesc lc dsOld)).result = true ∧
    ChangeMeans lc (fun x => x) dsAt dsOld dsContent [dsOp] (str "o") (dsOld.map utf8Enc) (dsChanged (readDesc lc dsOld)).result (dsChanged (readDesc lc dsOld)).link.peer := by
  refine ⟨ds_changed, ?_⟩
  obtain ⟨_, _, _, _, h⟩ := c104_history_partial DirP.sampleEnv ds_setting (fun _ _ => rfl) id (fun _ _ => Iff.rfl) true ⟨Session.St.init, dsOld.map utf8Enc⟩ SessionP.ready_init dsObj ds_alive
  obtain ⟨dn, e, ds, h1, h2, h3, h4⟩ := h _ ds_opened
  cases h1
  have h2' : some (dsEnt (dsOld.map utf8Enc)) = some e := h2
  cases h2'
  have h5 : dsOld.map utf8Enc = ds.map utf8Enc := h3
  have h6 : ds = dsOld := (map_utf8_inj _ _ h5).symm
  subst h6
  have h7 := ((h4 dsContent ds_says).2 [] DirP.sampleEnv true dsOp (fun _ hs => absurd hs List.not_mem_nil) rfl ds_program).1
  simp only [Api.descRun, List.map_nil, List.nil_append] at h7
  exact h7

/-- the object after the value `New` has been added -/
def dsLater : List Str := dsOld ++ [str "New"]
def dsObj' : Api.Obj := ⟨some (str "o"), CIDict.update lc CIDict.empty [(descAttr, dsLater.map .text)], .sub, none⟩

theorem ds_alive' : Alive lc (fun x => x) dsAt (fun _ v => Spec.Wire.Shows v.bytes v) (dsLater.map utf8Enc) dsObj' := by
  refine found_view (fun _ _ e _ => seen_good lc e) _ dsObj' (str "o", [(descAttr, dsLater.map utf8Enc)]) [descAttr] _ (if_pos rfl) ?_ _ (.cons ⟨rfl, .cons rfl (.cons rfl (.cons rfl .nil))⟩ .nil)
  constructor
  · decide +kernel
  · decide +kernel
  · decide +kernel

noncomputable def dsStale :=
  Api.descChange codec (fun d => d.1.1) dsPeer DirP.sampleEnv (fun _ => .ok (.default : AttrType AVal)) id true ⟨Session.St.init, dsLater.map utf8Enc⟩ dsObj' (readDesc lc dsOld) dsOp

set_option maxRecDepth 100000 in
theorem ds_stale : isOk dsStale.result = true := by decide +kernel

theorem ok_of : ∀ {x : Except Err Unit}, isOk x = true → x = .ok ()
  | .ok (), _ => rfl

/-- an extension that was made before: `New` is gone after the call -/
example : ∃ e', dsAt dsStale.link.peer (str "o") = some e' ∧ utf8Enc (str "New") ∉ e' (lc descAttr) :=
  c104_stale DirP.sampleEnv ds_setting id (fun _ _ => Iff.rfl) true ⟨Session.St.init, dsLater.map utf8Enc⟩ SessionP.ready_init dsObj' (str "o") rfl ds_alive' (readDesc lc dsOld) dsOp (by decide +kernel)
    (fun _ _ => rfl) (str "New") (by decide) (by decide) (ok_of ds_stale)

end DescW
end Laurelin.Props
