import Verif.Model.Extensible
import Verif.Lemmas.PDict
/-! C68: extensions. -/
namespace Laurelin.Props
open Laurelin Ext
namespace ExtP

/-- the instance is of the predefined extension of that name, and that one is part of laurelin -/
def IsBuiltIn (avail : Avail) (name : Str) (i : Inst) : Prop := ∃ info, avail.get? name = some info ∧ info.pip = none ∧ i.mod = info.mod

def OnlyBuiltIn (avail : Avail) (o : Owner) : Prop := ∀ name i, o.instances.get? name = some i → IsBuiltIn avail name i

theorem import_imports (w : World) (g : G) (m : Str) : (importExtension w g m).2.imports = g.imports ++ [m] ∧
    (importExtension w g m).2.additional = g.additional := by
  unfold importExtension
  dsimp only
  repeat' split
  all_goals exact ⟨rfl, rfl⟩

theorem create_cases (g : G) (o : Owner) (name m : Str) (d : ModDesc) :
    (∃ e, createInstance g o name m d = (.error e, g, o)) ∨
    (∃ i g', createInstance g o name m d = (.ok i, g', { o with instances := o.instances.set name i }) ∧ i.mod = m ∧
      g'.imports = g.imports ∧ g'.setups = g.setups ∧ g'.additional = g.additional ∧ g'.complete = g.complete) := by
  have bind : ∀ c : Option BindCls, (∃ e, bindInstance g o name m c = (.error e, g, o)) ∨
      (∃ i g', bindInstance g o name m c = (.ok i, g', { o with instances := o.instances.set name i }) ∧ i.mod = m ∧
        g'.imports = g.imports ∧ g'.setups = g.setups ∧ g'.additional = g.additional ∧ g'.complete = g.complete) := by
    intro c
    unfold bindInstance
    repeat' split
    · exact .inl ⟨_, rfl⟩
    · exact .inl ⟨_, rfl⟩
    · exact .inl ⟨_, rfl⟩
    · exact .inr ⟨_, _, rfl, rfl, rfl, rfl, rfl, rfl⟩
  unfold createInstance
  split
  · exact bind _
  · exact bind _
  · exact .inr ⟨_, _, rfl, rfl, rfl, rfl, rfl, rfl⟩

end ExtP
open ExtP

/-- **C68.** A connection (or object) restricted to built-in extensions never hands out, imports or sets up anything else: whatever the process has
done before (`g`), each access keeps that so. -/
theorem c68_built_in_only (w : World) (avail : Avail) (props : Kind → List Str) (g : G) (o : Owner) (name : Str)
    (hb : o.builtInOnly = true) (ho : OnlyBuiltIn avail o) :
    let r := access w avail props g o name
    (∀ i, r.1 = .ok i → IsBuiltIn avail name i) ∧ OnlyBuiltIn avail r.2.2 ∧ r.2.2.builtInOnly = true ∧
    (∀ m ∈ r.2.1.imports, m ∈ g.imports ∨ ∃ info, avail.get? name = some info ∧ info.pip = none ∧ m = info.mod) := by
  have dyn : ∀ g : G, ∀ o : Owner, o.builtInOnly = true → OnlyBuiltIn avail o →
      let r := getDynamic w g o name
      (∀ i, r.1 = .ok i → IsBuiltIn avail name i) ∧ r.2.2 = o ∧ r.2.1 = g := by
    intro g o hb ho
    dsimp only
    unfold getDynamic
    cases hi : o.instances.get? name with
    | some i => exact ⟨fun j e => by cases e; exact ho _ _ hi, rfl, rfl⟩
    | none =>
      cases ha : g.additional.get? name with
      | none => exact ⟨nofun, rfl, rfl⟩
      | some m => simp only [hb, if_true]; exact ⟨nofun, trivial, trivial⟩
  have pre : let r := getPredefined w avail g o name
      (∀ i, r.1 = .ok i → IsBuiltIn avail name i) ∧ OnlyBuiltIn avail r.2.2 ∧ r.2.2.builtInOnly = true ∧
      (∀ m ∈ r.2.1.imports, m ∈ g.imports ∨ ∃ info, avail.get? name = some info ∧ info.pip = none ∧ m = info.mod) := by
    dsimp only
    unfold getPredefined
    cases ha : avail.get? name with
    | none => exact ⟨nofun, ho, hb, fun m h => .inl h⟩
    | some info =>
      dsimp only
      by_cases hp : info.pip = none
      · rw [if_neg (by simp [hp])]
        cases hi : o.instances.get? name with
        | some i => exact ⟨fun j e => by cases e; exact ho _ _ hi, ho, hb, fun m h => .inl h⟩
        | none =>
          dsimp only
          have him := import_imports w g info.mod
          have imp : ∀ m ∈ (importExtension w g info.mod).2.imports, m ∈ g.imports ∨ ∃ i, some info = some i ∧ i.pip = none ∧ m = i.mod := by
            rw [him.1]
            intro m hm
            rcases List.mem_append.1 hm with h | h
            · exact .inl h
            · exact .inr ⟨info, rfl, hp, by simpa using h⟩
          generalize importExtension w g info.mod = r at imp
          obtain ⟨got, g'⟩ := r
          cases got with
          | importError => exact ⟨nofun, ho, hb, imp⟩
          | err e => exact ⟨nofun, ho, hb, imp⟩
          | mod d =>
            dsimp only
            rcases create_cases g' o name info.mod d with ⟨e, h⟩ | ⟨i, g2, h, h1, h2, _⟩
            · rw [h]; exact ⟨nofun, ho, hb, imp⟩
            · rw [h]
              refine ⟨?_, ?_, hb, ?_⟩
              · intro j e; cases e; exact ⟨info, ha, hp, h1⟩
              · intro n j hj
                rw [PDict.get?_set] at hj
                split at hj
                · rename_i e; cases hj; subst e; exact ⟨info, ha, hp, h1⟩
                · exact ho n j hj
              · rw [h2]; exact imp
      · rw [if_pos ⟨hb, hp⟩]; exact ⟨nofun, ho, hb, fun m h => .inl h⟩
  intro r
  have hr : r = access w avail props g o name := rfl
  unfold access at hr
  split at hr
  · dsimp only at pre
    generalize getPredefined w avail g o name = q at pre hr
    obtain ⟨q1, q2, q3⟩ := q
    obtain ⟨p1, p2, p3, p4⟩ := pre
    have fall : r = getDynamic w q2 q3 name → _ := fun hr => by
      have d := dyn q2 q3 p3 p2
      rw [← hr] at d
      exact (⟨d.1, by rw [d.2.1]; exact p2, by rw [d.2.1]; exact p3, by rw [d.2.2]; exact p4⟩ :
        (∀ i, r.1 = .ok i → IsBuiltIn avail name i) ∧ OnlyBuiltIn avail r.2.2 ∧ r.2.2.builtInOnly = true ∧
        (∀ m ∈ r.2.1.imports, m ∈ g.imports ∨ ∃ info, avail.get? name = some info ∧ info.pip = none ∧ m = info.mod))
    split at hr
    · rename_i e
      simp only [Prod.mk.injEq] at e
      obtain ⟨_, rfl, rfl⟩ := e
      exact fall hr
    · rw [hr]; exact ⟨p1, p2, p3, p4⟩
  · have d := dyn g o hb ho
    dsimp only at d
    rw [← hr] at d
    exact ⟨d.1, by rw [d.2.1]; exact ho, by rw [d.2.1]; exact hb, by rw [d.2.2]; exact fun m h => .inl h⟩

/-- **C68.** Objects made by such a connection are restricted as well, and start with nothing. -/
theorem c68_objects_inherit (avail : Avail) (conn : Owner) (h : conn.builtInOnly = true) :
    (newObject (some conn)).builtInOnly = true ∧ OnlyBuiltIn avail (newObject (some conn)) := ⟨h, nofun⟩

/-- **C68.** The first access that succeeds decides: every later access to that name gives the same instance, whatever happened in the process. -/
theorem c68_same_instance (w : World) (avail : Avail) (props : Kind → List Str) (g : G) (o : Owner) (name : Str) (i : Inst) (g' : G) (o' : Owner)
    (h : access w avail props g o name = (.ok i, g', o')) :
    o'.instances.get? name = some i ∧ ∀ g2, access w avail props g2 o' name = (.ok i, g2, o') := by
  have crea : ∀ g o m d i g' o', createInstance g o name m d = (.ok i, g', o') →
      o'.instances.get? name = some i ∧ o'.kind = o.kind ∧ o'.builtInOnly = o.builtInOnly := by
    intro g o m d i g' o' h
    rcases create_cases g o name m d with ⟨e, h'⟩ | ⟨j, g2, h', _⟩
    · rw [h'] at h; cases h
    · rw [h'] at h; cases h
      exact ⟨by simp [PDict.get?_set], rfl, rfl⟩
  have dyn : ∀ g o i g' o', getDynamic w g o name = (.ok i, g', o') → o'.instances.get? name = some i ∧ o'.kind = o.kind ∧ o'.builtInOnly = o.builtInOnly := by
    intro g o i g' o' h
    unfold getDynamic at h
    split at h
    · rename_i j hj; cases h; exact ⟨hj, rfl, rfl⟩
    · split at h
      · cases h
      · split at h
        · cases h
        · split at h
          · exact crea _ _ _ _ _ _ _ h
          · cases h
  have pre : ∀ r g' o', getPredefined w avail g o name = (r, g', o') → o'.kind = o.kind ∧ o'.builtInOnly = o.builtInOnly ∧
      (∀ i, r = .ok i → o'.instances.get? name = some i ∧ ∃ info, avail.get? name = some info ∧ ¬ (o.builtInOnly = true ∧ info.pip ≠ none)) ∧
      (r = .error .attributeError → ∃ info, avail.get? name = some info ∧ ¬ (o.builtInOnly = true ∧ info.pip ≠ none)) := by
    intro r g' o' h
    unfold getPredefined at h
    split at h
    · cases h; exact ⟨rfl, rfl, nofun, nofun⟩
    · rename_i info hinfo
      split at h
      · cases h; exact ⟨rfl, rfl, nofun, nofun⟩
      · rename_i hno
        split at h
        · rename_i j hj; cases h; exact ⟨rfl, rfl, fun k e => by cases e; exact ⟨hj, info, hinfo, hno⟩, nofun⟩
        · split at h
          · cases h; exact ⟨rfl, rfl, nofun, nofun⟩
          · cases h; exact ⟨rfl, rfl, nofun, fun _ => ⟨info, hinfo, hno⟩⟩
          · rename_i d g2 _
            rcases create_cases g2 o name info.mod d with ⟨e, h'⟩ | ⟨j, g3, h', _⟩
            · rw [h'] at h; cases h; exact ⟨rfl, rfl, nofun, fun _ => ⟨info, hinfo, hno⟩⟩
            · rw [h'] at h; cases h
              exact ⟨rfl, rfl, fun k e => by cases e; exact ⟨by simp [PDict.get?_set], info, hinfo, hno⟩, nofun⟩
  have again : ∀ (o2 : Owner), o2.instances.get? name = some i → (name ∈ props o2.kind → ∃ info, avail.get? name = some info ∧ ¬ (o2.builtInOnly = true ∧ info.pip ≠ none)) →
      ∀ g2, access w avail props g2 o2 name = (.ok i, g2, o2) := by
    intro o2 h1 h2 g2
    unfold access
    split
    · rename_i hp
      obtain ⟨info, e1, e2⟩ := h2 hp
      have : getPredefined w avail g2 o2 name = (.ok i, g2, o2) := by
        unfold getPredefined
        simp only [e1, if_neg e2, h1]
      rw [this]
    · simp [getDynamic, h1]
  unfold access at h
  split at h
  · rename_i hprop
    cases hq : getPredefined w avail g o name with
    | mk r1 rest =>
      obtain ⟨g1, o1⟩ := rest
      obtain ⟨k1, k2, k3, k4⟩ := pre r1 g1 o1 hq
      rw [hq] at h
      split at h
      · rename_i e
        simp only [Prod.mk.injEq] at e
        obtain ⟨e1, rfl, rfl⟩ := e
        obtain ⟨d1, d2, d3⟩ := dyn _ _ _ _ _ h
        refine ⟨d1, again o' d1 (fun _ => ?_)⟩
        rw [d3, k2]; exact k4 e1
      · cases h
        obtain ⟨d1, d2⟩ := k3 i rfl
        exact ⟨d1, again _ d1 (fun _ => by rw [k2]; exact d2)⟩
  · rename_i hprop
    obtain ⟨d1, d2, d3⟩ := dyn _ _ _ _ _ h
    exact ⟨d1, again o' d1 (fun hp => absurd (d2 ▸ hp) hprop)⟩

/-! setups -/

/-- anything the process does with extensions -/
inductive Op where
  | add (m : Str)
  | access (o : Owner) (name : Str)

def step (w : World) (avail : Avail) (props : Kind → List Str) (g : G) : Op → G
  | .add m => (addExtension w avail g m).2
  | .access o name => (access w avail props g o name).2.1

namespace ExtP

theorem import_setups (w : World) (g : G) (m x : Str)
    (h : g.setups.count x ≤ 1 ∧ (x ∈ g.setups → x ∈ g.complete)) (hx : ∀ d c, w x = .ok d → d.ext = some c → c.setup = .ok ()) :
    (importExtension w g m).2.setups.count x ≤ 1 ∧ (x ∈ (importExtension w g m).2.setups → x ∈ (importExtension w g m).2.complete) := by
  unfold importExtension
  dsimp only
  split
  · exact h
  · exact h
  · rename_i d hd
    split
    · exact h
    · rename_i hc
      split
      · exact h
      · rename_i c hcls
        split
        · exact h
        · split
          · exact h
          · by_cases e : m = x
            · subst e
              have hs := hx d c hd hcls
              simp only [hs]
              refine ⟨?_, by simp⟩
              have hn : m ∉ g.setups := fun q => hc (h.2 q)
              rw [List.count_append, List.count_eq_zero.2 hn]; simp
            · have hcount : (g.setups ++ [m]).count x = g.setups.count x := by
                rw [List.count_append]
                have : [m].count x = 0 := List.count_eq_zero.2 (by simp [Ne.symm e])
                omega
              have hmem : x ∈ g.setups ++ [m] ↔ x ∈ g.setups := by simp [Ne.symm e]
              split
              · refine ⟨by simpa [hcount] using h.1, fun q => ?_⟩
                have := h.2 (hmem.1 q)
                simp [this]
              · exact ⟨by simpa [hcount] using h.1, fun q => h.2 (hmem.1 q)⟩
              · exact ⟨by simpa [hcount] using h.1, fun q => h.2 (hmem.1 q)⟩

theorem create_g (g : G) (o : Owner) (name m : Str) (d : ModDesc) :
    (createInstance g o name m d).2.1.setups = g.setups ∧ (createInstance g o name m d).2.1.complete = g.complete ∧
    (createInstance g o name m d).2.1.additional = g.additional := by
  rcases create_cases g o name m d with ⟨e, h⟩ | ⟨i, g', h, _, _, h3, h4, h5⟩
  · rw [h]; exact ⟨rfl, rfl, rfl⟩
  · rw [h]; exact ⟨h3, h5, h4⟩

theorem dynamic_g (w : World) (g : G) (o : Owner) (name : Str) :
    (getDynamic w g o name).2.1.setups = g.setups ∧ (getDynamic w g o name).2.1.complete = g.complete ∧
    (getDynamic w g o name).2.1.additional = g.additional := by
  unfold getDynamic
  split
  · exact ⟨rfl, rfl, rfl⟩
  · split
    · exact ⟨rfl, rfl, rfl⟩
    · split
      · exact ⟨rfl, rfl, rfl⟩
      · split
        · exact create_g ..
        · exact ⟨rfl, rfl, rfl⟩

theorem predefined_g (w : World) (avail : Avail) (g : G) (o : Owner) (name : Str) (P : G → Prop) (h : P g)
    (hi : ∀ m, P (importExtension w g m).2) (hc : ∀ g g' : G, g'.setups = g.setups → g'.complete = g.complete → g'.additional = g.additional → P g → P g') :
    P (getPredefined w avail g o name).2.1 := by
  unfold getPredefined
  split
  · exact h
  · rename_i info _
    split
    · exact h
    · split
      · exact h
      · have := hi info.mod
        split
        · rename_i e; rw [e] at this; exact this
        · rename_i e; rw [e] at this; exact this
        · rename_i g2 e
          rw [e] at this
          obtain ⟨c1, c2, c3⟩ := create_g g2 o name info.mod ‹_›
          exact hc _ _ c1 c2 c3 this

theorem access_g (w : World) (avail : Avail) (props : Kind → List Str) (g : G) (o : Owner) (name : Str) (P : G → Prop) (h : P g)
    (hi : ∀ m, P (importExtension w g m).2) (hc : ∀ g g' : G, g'.setups = g.setups → g'.complete = g.complete → g'.additional = g.additional → P g → P g') :
    P (access w avail props g o name).2.1 := by
  unfold access
  split
  · have := predefined_g w avail g o name P h hi hc
    split
    · rename_i g2 o2 e
      rw [e] at this
      obtain ⟨c1, c2, c3⟩ := dynamic_g w g2 o2 name
      exact hc _ _ c1 c2 c3 this
    · exact this
  · obtain ⟨c1, c2, c3⟩ := dynamic_g w g o name
    exact hc _ _ c1 c2 c3 h

theorem add_complete (w : World) (avail : Avail) (g : G) (m : Str) :
    (addExtension w avail g m).2.setups = (importExtension w g m).2.setups ∧ (addExtension w avail g m).2.complete = (importExtension w g m).2.complete := by
  unfold addExtension
  generalize importExtension w g m = r
  obtain ⟨got, g'⟩ := r
  cases got with
  | importError => exact ⟨rfl, rfl⟩
  | err e => exact ⟨rfl, rfl⟩
  | mod d =>
    dsimp only
    repeat' split
    all_goals exact ⟨rfl, rfl⟩

end ExtP

/-- **C68.** Whatever is added and accessed, in any order and by any owners, the one-time setup of an extension (which registers its schema and
controls) that succeeds is run at most once. -/
theorem c68_setup_once (w : World) (avail : Avail) (props : Kind → List Str) (ops : List Op) (x : Str)
    (hx : ∀ d c, w x = .ok d → d.ext = some c → c.setup = .ok ()) :
    (ops.foldl (step w avail props) {}).setups.count x ≤ 1 := by
  have main : ∀ (ops : List Op) (g : G), (g.setups.count x ≤ 1 ∧ (x ∈ g.setups → x ∈ g.complete)) →
      ((ops.foldl (step w avail props) g).setups.count x ≤ 1 ∧ (x ∈ (ops.foldl (step w avail props) g).setups → x ∈ (ops.foldl (step w avail props) g).complete)) := by
    intro ops
    induction ops with
    | nil => intro g h; exact h
    | cons op ops ih =>
      intro g h
      rw [List.foldl_cons]
      apply ih
      cases op with
      | add m =>
        obtain ⟨e1, e2⟩ := add_complete w avail g m
        simp only [step, e1, e2]
        exact import_setups w g m x h hx
      | access o name =>
        exact access_g w avail props g o name (fun g => g.setups.count x ≤ 1 ∧ (x ∈ g.setups → x ∈ g.complete)) h
          (fun m => import_setups w g m x h hx) (fun g g' a b _ q => by rw [a, b]; exact q)
  exact (main ops {} (by simp)).1

/-- **C68.** A name, once taken by an added extension, stays with it: adding another module under that name is refused, and no access changes it. -/
theorem c68_name_stays (w : World) (avail : Avail) (props : Kind → List Str) (ops : List Op) (g : G) (name m : Str)
    (h : g.additional.get? name = some m) : (ops.foldl (step w avail props) g).additional.get? name = some m := by
  induction ops generalizing g with
  | nil => exact h
  | cons op ops ih =>
    rw [List.foldl_cons]
    apply ih
    have hi : ∀ x, (importExtension w g x).2.additional.get? name = some m := by
      intro x; rw [(import_imports w g x).2]; exact h
    cases op with
    | access o n =>
      exact access_g w avail props g o n (fun g => g.additional.get? name = some m) h hi (fun g g' _ _ c q => by rw [c]; exact q)
    | add x =>
      have hx := hi x
      simp only [step]
      unfold addExtension
      generalize importExtension w g x = r at hx
      obtain ⟨got, g'⟩ := r
      cases got with
      | importError => exact hx
      | err e => exact hx
      | mod d =>
        dsimp only at hx ⊢
        split
        · exact hx
        · rename_i c _
          split
          · split <;> exact hx
          · rename_i hn
            split
            · split <;> exact hx
            · dsimp only
              rw [PDict.get?_set]
              split
              · rename_i e; subst e; rw [hx] at hn; cases hn
              · exact hx

/-- **C68.** Adding an extension: it fails if its name is taken by another added one or by a predefined one of another module, and then it is not
bound; else the name is bound to it (or already predefined as it). -/
theorem c68_add (w : World) (avail : Avail) (g : G) (m : Str) (d : ModDesc) (c : ExtCls) (hw : w m = .ok d) (hc : d.ext = some c)
    (hsub : c.subclass = true) (hname : c.name ≠ undefinedName) (hset : c.setup = .ok ()) :
    let r := addExtension w avail g m
    (∀ m', g.additional.get? c.name = some m' → m' ≠ m → r.1 = .error (.err .extension) ∧ r.2.additional = g.additional) ∧
    (g.additional.get? c.name = some m → r.1 = .ok () ∧ r.2.additional = g.additional) ∧
    (∀ info, g.additional.get? c.name = none → avail.get? c.name = some info → r.2.additional = g.additional ∧
      (r.1 = .ok () ↔ info.mod = m) ∧ (info.mod ≠ m → r.1 = .error (.err .extension))) ∧
    (g.additional.get? c.name = none → avail.get? c.name = none → r.1 = .ok () ∧ r.2.additional.get? c.name = some m) := by
  have hi : ∃ g', importExtension w g m = (.mod d, g') ∧ g'.additional = g.additional := by
    have := (import_imports w g m).2
    unfold importExtension at this ⊢
    simp only [hw, hc, hsub, hset, if_neg hname] at this ⊢
    split
    · exact ⟨_, rfl, rfl⟩
    · exact ⟨_, rfl, rfl⟩
  obtain ⟨g', h1, h2⟩ := hi
  intro r
  have hr : r = addExtension w avail g m := rfl
  unfold addExtension at hr
  simp only [h1, hc, h2] at hr
  refine ⟨?_, ?_, ?_, ?_⟩
  · intro m' e hne; simp only [e, if_pos hne] at hr; rw [hr]; exact ⟨rfl, h2⟩
  · intro e; simp only [e] at hr; simp at hr; rw [hr]; exact ⟨rfl, h2⟩
  · intro info e1 e2
    simp only [e1, e2] at hr
    by_cases e : info.mod = m
    · simp [e] at hr; rw [hr]; exact ⟨h2, by simp [e], fun q => absurd e q⟩
    · simp only [ne_eq, e, not_false_eq_true, if_true] at hr; rw [hr]; exact ⟨h2, by simp [e], fun _ => rfl⟩
  · intro e1 e2
    simp only [e1, e2] at hr
    rw [hr]
    exact ⟨rfl, by simp [PDict.get?_set]⟩

/-- **C68.** A new instance handed out by a connection or object is made from that module's own class for this kind of owner, which derives from the
right base class and could be constructed. -/
theorem c68_proper_instance (w : World) (avail : Avail) (props : Kind → List Str) (g : G) (o : Owner) (name : Str) (i : Inst) (g' : G) (o' : Owner)
    (h : access w avail props g o name = (.ok i, g', o')) (hn : o.instances.get? name = none) (hk : o.kind ≠ .global) :
    ∃ d c, w i.mod = .ok d ∧ (if o.kind = .ldap then d.ldapCls else d.objCls) = some c ∧ c.subclass = true ∧ c.ctor = .ok () := by
  have bind : ∀ (g : G) (m : Str) (bc : Option BindCls) (i : Inst) (g' : G) (o' : Owner), bindInstance g o name m bc = (.ok i, g', o') →
      i.mod = m ∧ ∃ c, bc = some c ∧ c.subclass = true ∧ c.ctor = .ok () := by
    intro g m bc i g' o' h
    unfold bindInstance at h
    split at h
    · cases h
    · rename_i c
      split at h
      · cases h
      · rename_i hs
        split at h
        · cases h
        · rename_i hc
          cases h
          exact ⟨rfl, c, rfl, by simpa using hs, hc⟩
  have crea : ∀ (g : G) (m : Str) (d : ModDesc) (i : Inst) (g' : G) (o' : Owner), createInstance g o name m d = (.ok i, g', o') →
      i.mod = m ∧ ∃ c, (if o.kind = .ldap then d.ldapCls else d.objCls) = some c ∧ c.subclass = true ∧ c.ctor = .ok () := by
    intro g m d i g' o' h
    unfold createInstance at h
    split at h
    · rename_i e; rw [if_pos e]; exact bind _ _ _ _ _ _ h
    · rename_i e; rw [if_neg (by rw [e]; nofun)]; exact bind _ _ _ _ _ _ h
    · rename_i e; exact absurd e hk
  have dyn : ∀ (g : G) (i : Inst) (g' : G) (o' : Owner), getDynamic w g o name = (.ok i, g', o') →
      ∃ d c, w i.mod = .ok d ∧ (if o.kind = .ldap then d.ldapCls else d.objCls) = some c ∧ c.subclass = true ∧ c.ctor = .ok () := by
    intro g i g' o' h
    unfold getDynamic at h
    rw [hn] at h
    simp only at h
    split at h
    · cases h
    · split at h
      · cases h
      · split at h
        · rename_i d hd
          obtain ⟨rfl, c, h1⟩ := crea _ _ _ _ _ _ h
          exact ⟨d, c, hd, h1⟩
        · cases h
  have imp : ∀ m d g', importExtension w g m = (.mod d, g') → w m = .ok d := by
    intro m d g' h
    unfold importExtension at h
    dsimp only at h
    split at h
    · cases h
    · cases h
    · rename_i d' hd
      have : d' = d := by
        split at h
        · cases h; rfl
        · split at h
          · cases h
          · split at h
            · cases h
            · split at h
              · cases h
              · split at h <;> cases h; rfl
      rw [hd, this]
  have pre : (∀ i g' o', getPredefined w avail g o name = (.ok i, g', o') →
      ∃ d c, w i.mod = .ok d ∧ (if o.kind = .ldap then d.ldapCls else d.objCls) = some c ∧ c.subclass = true ∧ c.ctor = .ok ()) ∧
      (∀ e g' o', getPredefined w avail g o name = (.error e, g', o') → o' = o) := by
    unfold getPredefined
    rw [hn]
    constructor
    · intro i g' o' h
      split at h
      · cases h
      · rename_i info _
        split at h
        · cases h
        · simp only at h
          cases hi : importExtension w g info.mod with
          | mk got g2 =>
            rw [hi] at h
            cases got with
            | importError => cases h
            | err e => cases h
            | mod d =>
              obtain ⟨em, c, h1⟩ := crea _ _ _ _ _ _ h
              exact ⟨d, c, by rw [em]; exact imp _ _ _ hi, h1⟩
    · intro e g' o' h
      split at h
      · cases h; rfl
      · rename_i info _
        split at h
        · cases h; rfl
        · simp only at h
          cases hi : importExtension w g info.mod with
          | mk got g2 =>
            rw [hi] at h
            cases got with
            | importError => cases h; rfl
            | err e => cases h; rfl
            | mod d =>
              rcases create_cases g2 o name info.mod d with ⟨e', h'⟩ | ⟨j, g3, h', _⟩
              · simp only at h; rw [h'] at h; cases h; rfl
              · simp only at h; rw [h'] at h; cases h
  unfold access at h
  split at h
  · split at h
    · rename_i g2 o2 e
      have := pre.2 _ _ _ e
      subst this
      exact dyn _ _ _ _ h
    · exact pre.1 _ _ _ h
  · exact dyn _ _ _ _ h

/-- **C68.** All predefined extensions are part of laurelin, so the restriction never refuses them. -/
theorem c68_predefined_allowed (w : World) (g : G) (o : Owner) (name : Str) (i : Inst) (g' : G) (o' : Owner) (b : Bool)
    (h : getPredefined w available g o name = (.ok i, g', o')) :
    getPredefined w available g { o with builtInOnly := b } name = (.ok i, g', { o' with builtInOnly := b }) := by
  have hall : ∀ info, available.get? name = some info → info.pip = none := by
    intro info h
    have h := PDict.mem_of_get? _ _ _ h
    simp only [available, List.mem_cons, Prod.mk.injEq, List.not_mem_nil, or_false] at h
    rcases h with ⟨_, rfl⟩ | ⟨_, rfl⟩ | ⟨_, rfl⟩ | ⟨_, rfl⟩ <;> rfl
  unfold getPredefined at h ⊢
  cases ha : available.get? name with
  | none => simp only [ha] at h; cases h
  | some info =>
    have hp := hall info ha
    simp only [ha, hp, ne_eq, not_true, and_false, if_false] at h ⊢
    cases hi : o.instances.get? name with
    | some j => simp only [hi] at h; cases h; rfl
    | none =>
      simp only [hi] at h ⊢
      generalize importExtension w g info.mod = r at h
      obtain ⟨got, g2⟩ := r
      cases got with
      | importError => cases h
      | err e => cases h
      | mod d =>
        dsimp only at h ⊢
        have bind : ∀ c, bindInstance g2 o name info.mod c = (.ok i, g', o') →
            bindInstance g2 { o with builtInOnly := b } name info.mod c = (.ok i, g', { o' with builtInOnly := b }) := by
          intro c h
          unfold bindInstance at h ⊢
          cases c with
          | none => cases h
          | some c =>
            dsimp only at h ⊢
            split at h
            · cases h
            · rename_i hs
              rw [if_neg hs]
              cases hct : c.ctor with
              | error e => simp only [hct] at h; cases h
              | ok u => simp only [hct] at h; cases h; rfl
        unfold createInstance at h ⊢
        cases hk : o.kind <;> simp only [hk] at h ⊢
        · simpa only [hk] using bind _ h
        · simpa only [hk] using bind _ h
        · cases h; simp

/-! ### concrete cases and findings -/

/-- two third-party modules that claim the same name -/
def twoMods : World := fun m =>
  if m = str "a" ∨ m = str "b" then .ok ⟨some ⟨true, str "x", .ok ()⟩, some ⟨true, .ok ()⟩, none⟩ else .importError

/-- **C68, finding.** A refused extension has been set up all the same: its schema and controls are registered. -/
theorem c68_refused_was_set_up :
    let g := (addExtension twoMods available {} (str "a")).2
    (addExtension twoMods available g (str "b")).1 = .error (.err .extension) ∧
    (addExtension twoMods available g (str "b")).2.setups = [str "a", str "b"] := by decide +kernel

/-- a restricted connection refuses what was added, an unrestricted one hands it out, the same one each time -/
example :
    let g := (addExtension twoMods available {} (str "a")).2
    (access twoMods available props g ⟨.ldap, true, []⟩ (str "x")).1 = .error .runtimeError ∧
    (access twoMods available props g ⟨.ldap, false, []⟩ (str "x")).1 = .ok ⟨str "a", 1⟩ ∧
    (access twoMods available props g ⟨.object, false, []⟩ (str "x")).1 = .error .extension ∧
    (access twoMods available props g ⟨.ldap, false, []⟩ (str "y")).1 = .error .attributeError := by decide +kernel

end Laurelin.Props
