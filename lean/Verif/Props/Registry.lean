import Verif.Model.Schema
import Verif.Lemmas.CaseIgnoreDict
/-!
# C32 schema registries
-/
set_option linter.unusedSectionVars false
namespace Laurelin.Props
open Laurelin Schema
namespace Registry
open CIDict
variable {E : Type} (lower : Str → Str)

theorem contains_iff (d : CIDict Str (Elem E)) (h : Inv lower d) (k : Str) : d.contains lower k = true ↔ abs d (lower k) ≠ none := by
  simp only [CIDict.contains, getItem_eq lower d h]
  cases abs d (lower k) <;> simp

theorem regNames_keep (e : Elem E) (ns : List Str) (d : CIDict Str (Elem E)) (h : Inv lower d) :
    Inv lower (regNames lower e d ns).1 ∧ (∀ k x, abs d k = some x → abs (regNames lower e d ns).1 k = some x) ∧
    ((regNames lower e d ns).2 = .ok () → ∀ n ∈ ns, abs (regNames lower e d ns).1 (lower n) = some e) ∧
    ((regNames lower e d ns).2 = .ok () ∨ (regNames lower e d ns).2 = .error .ldapSchema) ∧
    ((∃ n ∈ ns, abs d (lower n) ≠ none) → (regNames lower e d ns).2 = .error .ldapSchema) ∧
    ((∀ n ∈ ns, abs d (lower n) = none) → (ns.map lower).Nodup → (regNames lower e d ns).2 = .ok ()) ∧
    (∀ k x, abs (regNames lower e d ns).1 k = some x → abs d k = some x ∨ (x = e ∧ ∃ n ∈ ns, lower n = k)) := by
  induction ns generalizing d with
  | nil => simp [regNames, h]
  | cons n ns ih =>
    simp only [regNames]
    split
    · rename_i hc
      have hc := (contains_iff lower d h n).1 hc
      refine ⟨h, fun _ _ hx => hx, by simp, by simp, by simp, ?_, fun k x hx => .inl hx⟩
      intro hnone
      exact absurd (hnone n (by simp)) hc
    · rename_i hc
      have hc : abs d (lower n) = none := by
        have := mt (contains_iff lower d h n).2 hc
        simpa using this
      obtain ⟨i1, i2, i3, i4, i5, i6, i7⟩ := ih (d.setItem lower n e) (inv_set lower d n e h)
      have habs : ∀ k, abs (d.setItem lower n e) k = if k = lower n then some e else abs d k := by
        intro k; rw [abs_set lower d n e h]; rfl
      refine ⟨i1, ?_, ?_, i4, ?_, ?_, ?_⟩
      · intro k x hx
        apply i2
        rw [habs]
        by_cases hk : k = lower n
        · subst hk; rw [hc] at hx; simp at hx
        · rw [if_neg hk]; exact hx
      · intro hok m hm
        rcases List.mem_cons.1 hm with rfl | hm
        · exact i2 _ _ (by rw [habs]; simp)
        · exact i3 hok m hm
      · rintro ⟨m, hm, hne⟩
        rcases List.mem_cons.1 hm with rfl | hm
        · exact absurd hc hne
        · apply i5
          refine ⟨m, hm, ?_⟩
          rw [habs]
          split
          · simp
          · exact hne
      · intro hnone hnd
        simp only [List.map_cons, List.nodup_cons] at hnd
        refine i6 ?_ hnd.2
        intro m hm
        rw [habs, if_neg]
        · exact hnone m (by simp [hm])
        · intro heq
          exact hnd.1 (List.mem_map.2 ⟨m, hm, heq⟩)
      · intro k x hx
        rcases i7 k x hx with h1 | ⟨h1, m, hm, h2⟩
        · rw [habs] at h1
          by_cases hk : k = lower n
          · rw [if_pos hk] at h1; simp at h1
            exact .inr ⟨h1.symm, n, by simp, hk.symm⟩
          · rw [if_neg hk] at h1; exact .inl h1
        · exact .inr ⟨h1, m, by simp [hm], h2⟩

/-- `r.find` in terms of the abstract maps -/
theorem find_eq (r : Reg E) (h : Inv lower r.names) (x : Str) (e : Elem E) :
    r.find lower x = .ok (.elem e) ↔ (numeric x = .ok true ∧ r.oids.get? x = some e) ∨ (numeric x = .ok false ∧ abs r.names (lower x) = some e) := by
  simp only [Reg.find]
  cases hn : numeric x with
  | error _ => simp
  | ok b =>
    cases b with
    | true => cases r.oids.get? x <;> simp
    | false =>
      simp only [getItem_eq lower r.names h]
      cases abs r.names (lower x) <;> simp

theorem register_inv (r : Reg E) (h : Inv lower r.names) (e : Elem E) : Inv lower (r.register lower e).1.names := by
  simp only [Reg.register]
  split
  · exact h
  · exact (regNames_keep lower e e.names r.names h).1

theorem register_keep (r : Reg E) (h : Inv lower r.names) (e : Elem E) :
    (∀ k x, r.oids.get? k = some x → (r.register lower e).1.oids.get? k = some x) ∧
    (∀ k x, abs r.names k = some x → abs (r.register lower e).1.names k = some x) := by
  simp only [Reg.register]
  split
  · exact ⟨fun _ _ h => h, fun _ _ h => h⟩
  · rename_i ho
    refine ⟨?_, (regNames_keep lower e e.names r.names h).2.1⟩
    intro k x hx
    rw [PDict.get?_set]
    split
    · rename_i hk; subst hk; rw [hx] at ho; simp at ho
    · exact hx

theorem run_keep (es : List (Elem E)) (r : Reg E) (h : Inv lower r.names) :
    Inv lower (r.run lower es).1.names ∧ (∀ k x, r.oids.get? k = some x → (r.run lower es).1.oids.get? k = some x) ∧
    (∀ k x, abs r.names k = some x → abs (r.run lower es).1.names k = some x) := by
  induction es generalizing r with
  | nil => exact ⟨h, fun _ _ h => h, fun _ _ h => h⟩
  | cons e es ih =>
    obtain ⟨a, b, c⟩ := ih _ (register_inv lower r h e)
    obtain ⟨d, f⟩ := register_keep lower r h e
    exact ⟨a, fun k x hx => b k x (d k x hx), fun k x hx => c k x (f k x hx)⟩

theorem run_ok (es : List (Elem E)) (r : Reg E) (h : Inv lower r.names) (i : Nat) (e : Elem E) (he : es[i]? = some e)
    (ho : (r.run lower es).2[i]? = some (.ok ())) :
    (r.run lower es).1.oids.get? e.oid = some e ∧ ∀ n ∈ e.names, abs (r.run lower es).1.names (lower n) = some e := by
  induction es generalizing r i with
  | nil => simp at he
  | cons e' es ih =>
    cases i with
    | zero =>
      simp at he
      subst he
      simp only [Reg.run, List.getElem?_cons_zero, Option.some.injEq] at ho
      obtain ⟨_, b, c⟩ := run_keep lower es _ (register_inv lower r h e')
      have hr : (r.register lower e').1.oids.get? e'.oid = some e' ∧ ∀ n ∈ e'.names, abs (r.register lower e').1.names (lower n) = some e' := by
        simp only [Reg.register] at ho ⊢
        split at ho
        · simp at ho
        · rename_i hn
          rw [if_neg hn]
          exact ⟨by rw [PDict.get?_set]; simp, (regNames_keep lower e' e'.names r.names h).2.2.1 ho⟩
      exact ⟨b _ _ hr.1, fun n hn => c _ _ (hr.2 n hn)⟩
    | succ i =>
      simp only [List.getElem?_cons_succ] at he
      simp only [Reg.run, List.getElem?_cons_succ] at ho
      exact ih _ (register_inv lower r h e') i he ho

theorem reachable_inv (es : List (Elem E)) : Inv lower ((Reg.empty : Reg E).run lower es).1.names :=
  (run_keep lower es Reg.empty (inv_empty lower)).1

end Registry
open Registry

variable {E : Type} (lower : Str → Str)

/-- **C32.** After any sequence of registrations, every element whose registration was accepted is what looking up its OID, or any of its names
in any casing, returns. -/
theorem c32_lookup (es : List (Elem E)) (i : Nat) (e : Elem E) (he : es[i]? = some e) (ho : ((Reg.empty : Reg E).run lower es).2[i]? = some (.ok ())) :
    (numeric e.oid = .ok true → ((Reg.empty : Reg E).run lower es).1.find lower e.oid = .ok (.elem e)) ∧
    (∀ n ∈ e.names, ∀ x, lower x = lower n → numeric x = .ok false → ((Reg.empty : Reg E).run lower es).1.find lower x = .ok (.elem e)) := by
  have hinv := reachable_inv lower es
  obtain ⟨h1, h2⟩ := run_ok lower es Reg.empty (CIDict.inv_empty lower) i e he ho
  refine ⟨fun hn => (find_eq lower _ hinv _ _).2 (.inl ⟨hn, h1⟩), ?_⟩
  intro n hn x hx hnum
  exact (find_eq lower _ hinv _ _).2 (.inr ⟨hnum, by rw [hx]; exact h2 n hn⟩)

/-- **C32.** A registration under an OID or a name that is in use is refused, and a new element with unused, distinct names and OID is accepted. -/
theorem c32_duplicates (es : List (Elem E)) (e : Elem E) :
    let r := ((Reg.empty : Reg E).run lower es).1
    (∀ e', r.find lower e.oid = .ok (.elem e') → numeric e.oid = .ok true → (r.register lower e).2 = .error .ldapSchema) ∧
    (∀ n ∈ e.names, ∀ e', r.find lower n = .ok (.elem e') → numeric n = .ok false → (r.register lower e).2 = .error .ldapSchema) ∧
    (numeric e.oid = .ok true → r.find lower e.oid = .error .keyError → (∀ n ∈ e.names, r.find lower n = .ok (.dflt n)) →
      (e.names.map lower).Nodup → (r.register lower e).2 = .ok ()) := by
  intro r
  have hinv : CIDict.Inv lower r.names := reachable_inv lower es
  refine ⟨?_, ?_, ?_⟩
  · intro e' hf hn
    rcases (find_eq lower r hinv _ _).1 hf with ⟨_, h⟩ | ⟨h, _⟩
    · simp [Reg.register, h]
    · rw [hn] at h; simp at h
  · intro n hn e' hf hnum
    rcases (find_eq lower r hinv _ _).1 hf with ⟨h, _⟩ | ⟨_, h⟩
    · rw [hnum] at h; simp at h
    · simp only [Reg.register]
      split
      · rfl
      · exact (regNames_keep lower e e.names r.names hinv).2.2.2.2.1 ⟨n, hn, by simp [h]⟩
  · intro hnum hf hnames hnd
    simp only [Reg.register]
    have : r.oids.get? e.oid = none := by
      simp only [Reg.find, hnum] at hf
      cases h : r.oids.get? e.oid with
      | none => rfl
      | some x => simp [h] at hf
    simp only [this, Option.isSome_none, Bool.false_eq_true, if_false]
    refine (regNames_keep lower e e.names r.names hinv).2.2.2.2.2.1 ?_ hnd
    intro n hn
    have := hnames n hn
    simp only [Reg.find] at this
    split at this
    · simp at this
    · split at this <;> simp at this
    · rw [CIDict.getItem_eq lower r.names hinv] at this
      cases h : CIDict.abs r.names (lower n) with
      | none => rfl
      | some x => simp [h] at this

/-- **C32.** No registration, accepted or refused, changes what a lookup that already found an element returns; and one refused because of its OID
changes nothing at all. -/
theorem c32_stable_partial (es : List (Elem E)) (e : Elem E) :
    let r := ((Reg.empty : Reg E).run lower es).1
    (∀ x e', r.find lower x = .ok (.elem e') → (r.register lower e).1.find lower x = .ok (.elem e')) ∧
    (∀ e', numeric e.oid = .ok true → r.find lower e.oid = .ok (.elem e') → (r.register lower e).1 = r) := by
  intro r
  have hinv : CIDict.Inv lower r.names := reachable_inv lower es
  refine ⟨?_, ?_⟩
  · intro x e' hx
    rw [find_eq lower _ (register_inv lower r hinv e)]
    rcases (find_eq lower r hinv _ _).1 hx with ⟨h1, h2⟩ | ⟨h1, h2⟩
    · exact .inl ⟨h1, (register_keep lower r hinv e).1 _ _ h2⟩
    · exact .inr ⟨h1, (register_keep lower r hinv e).2 _ _ h2⟩
  · intro e' hn hf
    rcases (find_eq lower r hinv _ _).1 hf with ⟨_, h⟩ | ⟨h, _⟩
    · simp [Reg.register, h]
    · rw [hn] at h; simp at h

/-- C32 is false for refusals because of a name: the refused element can afterwards be looked up by its OID (before, nothing was found), and no
corrected element with that OID can be registered any more. -/
theorem c32_half_registered (es : List (Elem E)) (e e0 : Elem E) (n : Str) (hn : n ∈ e.names) (hnum : numeric n = .ok false) :
    let r := ((Reg.empty : Reg E).run lower es).1
    r.find lower n = .ok (.elem e0) → numeric e.oid = .ok true → r.find lower e.oid = .error .keyError →
    (r.register lower e).2 = .error .ldapSchema ∧ (r.register lower e).1.find lower e.oid = .ok (.elem e) ∧
    ∀ e2, e2.oid = e.oid → ((r.register lower e).1.register lower e2).2 = .error .ldapSchema := by
  intro r hf ho hno
  have hinv : CIDict.Inv lower r.names := reachable_inv lower es
  have hnone : r.oids.get? e.oid = none := by
    simp only [Reg.find, ho] at hno
    cases h : r.oids.get? e.oid with
    | none => rfl
    | some x => simp [h] at hno
  have hget : (r.register lower e).1.oids.get? e.oid = some e := by
    simp only [Reg.register, hnone, Option.isSome_none, Bool.false_eq_true, if_false]
    rw [PDict.get?_set]; simp
  refine ⟨(c32_duplicates lower es e).2.1 n hn e0 hf hnum, ?_, ?_⟩
  · rw [find_eq lower _ (register_inv lower r hinv e)]
    exact .inl ⟨ho, hget⟩
  · intro e2 he2
    simp [Reg.register] at hget ⊢
    simp [he2, hget]

/-! ### matching rules -/

namespace Registry
open CIDict

/-- consistency of the matching rule dictionaries -/
structure MInv (r : MReg) : Prop where
  ic : Inv lower r.nameC
  io : Inv lower r.nameO
  oc : ∀ x c, r.oidC.get? x = some c → c.oid = x ∧ x ≠ [] ∧ (c.name ≠ [] → abs r.nameC (lower c.name) = some c)
  nc : ∀ k c, abs r.nameC k = some c → lower c.name = k ∧ c.name ≠ [] ∧ (c.oid ≠ [] → r.oidC.get? c.oid = some c)
  oo : ∀ x o, r.oidO.get? x = some o → r.oidC.get? x = some o.cls ∧ (o.cls.name ≠ [] → abs r.nameO (lower o.cls.name) = some o)
  no : ∀ k o, abs r.nameO k = some o → abs r.nameC k = some o.cls ∧ (o.cls.oid ≠ [] → r.oidO.get? o.cls.oid = some o)

theorem minv_empty : MInv lower MReg.empty :=
  ⟨inv_empty lower, inv_empty lower, by simp [MReg.empty], by simp [MReg.empty, abs_empty], by simp [MReg.empty], by simp [MReg.empty, abs_empty]⟩

theorem mcontains {V : Type} (d : CIDict Str V) (h : Inv lower d) (k : Str) : d.contains lower k = true ↔ abs d (lower k) ≠ none := by
  simp only [CIDict.contains, getItem_eq lower d h]
  cases abs d (lower k) <;> simp

theorem mabs_set {V : Type} (d : CIDict Str V) (h : Inv lower d) (n : Str) (v : V) (k : Str) :
    abs (d.setItem lower n v) k = if k = lower n then some v else abs d k := by
  rw [abs_set lower d n v h]; rfl

theorem register_minv (r : MReg) (h : MInv lower r) (c : Rule) (hok : (r.register lower c).2 = .ok ()) :
    MInv lower (r.register lower c).1 ∧ (∀ x c', r.oidC.get? x = some c' → (r.register lower c).1.oidC.get? x = some c') ∧
    (∀ k c', abs r.nameC k = some c' → abs (r.register lower c).1.nameC k = some c') ∧
    (r.register lower c).1.oidO = r.oidO ∧ (r.register lower c).1.nameO = r.nameO ∧
    (c.oid ≠ [] → (r.register lower c).1.oidC.get? c.oid = some c) ∧ (c.name ≠ [] → abs (r.register lower c).1.nameC (lower c.name) = some c) := by
  simp only [MReg.register] at hok ⊢
  split at hok
  · simp at hok
  rename_i h1
  rw [if_neg h1]
  have h1' : c.oid ≠ [] → r.oidC.get? c.oid = none := by
    intro hne
    cases hh : r.oidC.get? c.oid with
    | none => rfl
    | some x => exact absurd ⟨hne, by simp [hh]⟩ h1
  obtain ⟨oidC, nameC, oidO, nameO, next⟩ := r
  by_cases ho : c.oid = []
  · simp only [ho, ne_eq, not_true_eq_false, if_false] at hok ⊢
    split at hok
    · simp at hok
    rename_i h2
    rw [if_neg h2]
    by_cases hn : c.name = []
    · simp only [hn, not_true_eq_false, if_false]
      exact ⟨h, fun _ _ x => x, fun _ _ x => x, by simp⟩
    · have h2' : abs nameC (lower c.name) = none := by
        have := mt (mcontains lower nameC h.ic c.name).2 (fun x => h2 ⟨hn, x⟩)
        simpa using this
      simp only [hn, not_false_eq_true, if_true]
      have hset := mabs_set lower nameC h.ic c.name c
      refine ⟨⟨inv_set lower _ _ _ h.ic, h.io, ?_, ?_, h.oo, ?_⟩, fun _ _ x => x, ?_, by trivial, by trivial, by simp, ?_⟩
      · intro x c' hx
        obtain ⟨a, b, d⟩ := h.oc x c' hx
        refine ⟨a, b, fun hne => ?_⟩
        rw [hset]
        split
        · rename_i hk; have := d hne; rw [hk, h2'] at this; simp at this
        · exact d hne
      · intro k c' hk
        rw [hset] at hk
        split at hk
        · rename_i he; cases hk; exact ⟨he.symm, hn, fun x => absurd ho x⟩
        · exact h.nc k c' hk
      · intro k o hk
        obtain ⟨a, b⟩ := h.no k o hk
        refine ⟨?_, b⟩
        rw [hset]
        split
        · rename_i he; rw [he, h2'] at a; simp at a
        · exact a
      · intro k c' hk
        rw [hset]
        split
        · rename_i he; rw [he, h2'] at hk; simp at hk
        · exact hk
      · intro _; rw [hset]; simp
  · have h1'' := h1' ho
    simp only at h1''
    simp only [ne_eq, ho, not_false_eq_true, if_true] at hok ⊢
    split at hok
    · simp at hok
    rename_i h2
    rw [if_neg h2]
    have hoset : ∀ x, PDict.get? (PDict.set oidC c.oid c) x = if x = c.oid then some c else oidC.get? x := fun x => PDict.get?_set _ _ _ _
    by_cases hn : c.name = []
    · simp only [hn, not_true_eq_false, if_false]
      refine ⟨⟨h.ic, h.io, ?_, ?_, ?_, h.no⟩, ?_, fun _ _ x => x, by trivial, by trivial, fun _ => by rw [hoset]; simp, by simp⟩
      · intro x c' hx
        simp only [hoset] at hx
        split at hx
        · rename_i he; cases hx; exact ⟨he.symm, by rw [he]; exact ho, fun y => absurd hn y⟩
        · exact h.oc x c' hx
      · intro k c' hk
        obtain ⟨a, b, d⟩ := h.nc k c' hk
        refine ⟨a, b, fun hne => ?_⟩
        simp only [hoset]
        split
        · rename_i he; have := d hne; simp only at this; rw [he, h1''] at this; simp at this
        · exact d hne
      · intro x o hx
        obtain ⟨a, b⟩ := h.oo x o hx
        refine ⟨?_, b⟩
        simp only [hoset]
        split
        · rename_i he; simp only at a; rw [he, h1''] at a; simp at a
        · exact a
      · intro x c' hx
        simp only [hoset]
        split
        · rename_i he; rw [he, h1''] at hx; simp at hx
        · exact hx
    · have h2' : abs nameC (lower c.name) = none := by
        have := mt (mcontains lower nameC h.ic c.name).2 (fun x => h2 ⟨hn, x⟩)
        simpa using this
      simp only [hn, not_false_eq_true, if_true]
      have hset := mabs_set lower nameC h.ic c.name c
      refine ⟨⟨inv_set lower _ _ _ h.ic, h.io, ?_, ?_, ?_, ?_⟩, ?_, ?_, by trivial, by trivial, fun _ => by rw [hoset]; simp, fun _ => by rw [hset]; simp⟩
      · intro x c' hx
        simp only [hoset] at hx
        split at hx
        · rename_i he; cases hx; exact ⟨he.symm, by rw [he]; exact ho, fun _ => by rw [hset]; simp⟩
        · obtain ⟨a, b, d⟩ := h.oc x c' hx
          refine ⟨a, b, fun hne => ?_⟩
          rw [hset]
          split
          · rename_i hk; have := d hne; rw [hk, h2'] at this; simp at this
          · exact d hne
      · intro k c' hk
        rw [hset] at hk
        split at hk
        · rename_i he; cases hk; exact ⟨he.symm, hn, fun _ => by simp only [hoset]; simp⟩
        · obtain ⟨a, b, d⟩ := h.nc k c' hk
          refine ⟨a, b, fun hne => ?_⟩
          simp only [hoset]
          split
          · rename_i he; have := d hne; simp only at this; rw [he, h1''] at this; simp at this
          · exact d hne
      · intro x o hx
        obtain ⟨a, b⟩ := h.oo x o hx
        refine ⟨?_, b⟩
        simp only [hoset]
        split
        · rename_i he; simp only at a; rw [he, h1''] at a; simp at a
        · exact a
      · intro k o hk
        obtain ⟨a, b⟩ := h.no k o hk
        refine ⟨?_, b⟩
        rw [hset]
        split
        · rename_i he; rw [he, h2'] at a; simp at a
        · exact a
      · intro x c' hx
        simp only [hoset]
        split
        · rename_i he; rw [he, h1''] at hx; simp at hx
        · exact hx
      · intro k c' hk
        rw [hset]
        split
        · rename_i he; rw [he, h2'] at hk; simp at hk
        · exact hk

/-- instantiating a registered class of which there is no object -/
theorem instantiate_minv (r : MReg) (h : MInv lower r) (c : Rule) (hc1 : c.oid ≠ [] → r.oidC.get? c.oid = some c ∧ r.oidO.get? c.oid = none)
    (hc2 : c.name ≠ [] → abs r.nameC (lower c.name) = some c ∧ abs r.nameO (lower c.name) = none) :
    ∃ r', r.instantiate lower c = (r', .ok ⟨r.next, c⟩) ∧ MInv lower r' ∧ r'.oidC = r.oidC ∧ r'.nameC = r.nameC ∧
      (∀ x o, r.oidO.get? x = some o → r'.oidO.get? x = some o) ∧ (∀ k o, abs r.nameO k = some o → abs r'.nameO k = some o) ∧
      (c.oid ≠ [] → r'.oidO.get? c.oid = some ⟨r.next, c⟩) ∧ (c.name ≠ [] → abs r'.nameO (lower c.name) = some ⟨r.next, c⟩) := by
  obtain ⟨oidC, nameC, oidO, nameO, next⟩ := r
  simp only at hc1 hc2
  have hset := mabs_set lower nameO h.io c.name ⟨next, c⟩
  have hoset : ∀ x, PDict.get? (PDict.set oidO c.oid ⟨next, c⟩) x = if x = c.oid then some ⟨next, c⟩ else oidO.get? x := fun x => PDict.get?_set _ _ _ _
  have hcon : c.name ≠ [] → nameO.contains lower c.name = false := by
    intro hn
    have := mt (mcontains lower nameO h.io c.name).1 (by simp [(hc2 hn).2])
    simpa using this
  by_cases ho : c.oid = [] <;> by_cases hn : c.name = []
  · refine ⟨⟨oidC, nameC, oidO, nameO, next + 1⟩, by simp [MReg.instantiate, ho, hn], ⟨h.ic, h.io, h.oc, h.nc, h.oo, h.no⟩, by trivial, by trivial, fun _ _ x => x, fun _ _ x => x, ?_, ?_⟩
    · intro x; exact absurd ho x
    · intro x; exact absurd hn x
  · refine ⟨⟨oidC, nameC, oidO, nameO.setItem lower c.name ⟨next, c⟩, next + 1⟩, by simp [MReg.instantiate, ho, hn, hcon hn],
      ⟨h.ic, inv_set lower _ _ _ h.io, h.oc, h.nc, ?_, ?_⟩, by trivial, by trivial, fun _ _ x => x, ?_, fun x => absurd ho x, fun _ => by rw [hset]; simp⟩
    · intro x o hx
      obtain ⟨a, b⟩ := h.oo x o hx
      refine ⟨a, fun hne => ?_⟩
      rw [hset]
      split
      · rename_i he; have := b hne; simp only at this; rw [he, (hc2 hn).2] at this; simp at this
      · exact b hne
    · intro k o hk
      rw [hset] at hk
      split at hk
      · rename_i he; cases hk; exact ⟨by rw [he]; exact (hc2 hn).1, fun x => absurd ho x⟩
      · exact h.no k o hk
    · intro k o hk
      rw [hset]
      split
      · rename_i he; simp only at hk; rw [he, (hc2 hn).2] at hk; simp at hk
      · exact hk
  · refine ⟨⟨oidC, nameC, oidO.set c.oid ⟨next, c⟩, nameO, next + 1⟩, by simp [MReg.instantiate, ho, hn, (hc1 ho).2],
      ⟨h.ic, h.io, h.oc, h.nc, ?_, ?_⟩, by trivial, by trivial, ?_, fun _ _ x => x, fun _ => by rw [hoset]; simp, fun x => absurd hn x⟩
    · intro x o hx
      simp only [hoset] at hx
      split at hx
      · rename_i he; cases hx; exact ⟨by rw [he]; exact (hc1 ho).1, fun x => absurd hn x⟩
      · exact h.oo x o hx
    · intro k o hk
      obtain ⟨a, b⟩ := h.no k o hk
      refine ⟨a, fun hne => ?_⟩
      simp only [hoset]
      split
      · rename_i he; have := b hne; simp only at this; rw [he, (hc1 ho).2] at this; simp at this
      · exact b hne
    · intro x o hx
      simp only [hoset]
      split
      · rename_i he; simp only at hx; rw [he, (hc1 ho).2] at hx; simp at hx
      · exact hx
  · refine ⟨⟨oidC, nameC, oidO.set c.oid ⟨next, c⟩, nameO.setItem lower c.name ⟨next, c⟩, next + 1⟩, by simp [MReg.instantiate, ho, hn, (hc1 ho).2, hcon hn],
      ⟨h.ic, inv_set lower _ _ _ h.io, h.oc, h.nc, ?_, ?_⟩, by trivial, by trivial, ?_, ?_, fun _ => by rw [hoset]; simp, fun _ => by rw [hset]; simp⟩
    · intro x o hx
      simp only [hoset] at hx
      split at hx
      · rename_i he; cases hx; exact ⟨by rw [he]; exact (hc1 ho).1, fun _ => by rw [hset]; simp⟩
      · obtain ⟨a, b⟩ := h.oo x o hx
        refine ⟨a, fun hne => ?_⟩
        rw [hset]
        split
        · rename_i he; have := b hne; simp only at this; rw [he, (hc2 hn).2] at this; simp at this
        · exact b hne
    · intro k o hk
      rw [hset] at hk
      split at hk
      · rename_i he; cases hk; exact ⟨by rw [he]; exact (hc2 hn).1, fun _ => by simp only [hoset]; simp⟩
      · obtain ⟨a, b⟩ := h.no k o hk
        refine ⟨a, fun hne => ?_⟩
        simp only [hoset]
        split
        · rename_i he; have := b hne; simp only at this; rw [he, (hc1 ho).2] at this; simp at this
        · exact b hne
    · intro x o hx
      simp only [hoset]
      split
      · rename_i he; simp only at hx; rw [he, (hc1 ho).2] at hx; simp at hx
      · exact hx
    · intro k o hk
      rw [hset]
      split
      · rename_i he; simp only at hk; rw [he, (hc2 hn).2] at hk; simp at hk
      · exact hk

/-- `r` knows class `c` -/
def Knows (r : MReg) (c : Rule) : Prop := (c.oid ≠ [] → r.oidC.get? c.oid = some c) ∧ (c.name ≠ [] → abs r.nameC (lower c.name) = some c)

/-- `o` is the object of its class -/
def HasObj (r : MReg) (o : RuleObj) : Prop :=
  (o.cls.oid ≠ [] → r.oidO.get? o.cls.oid = some o) ∧ (o.cls.name ≠ [] → abs r.nameO (lower o.cls.name) = some o)

/-- `x` is the OID or, in some casing, the name of `c` -/
def IdentOf (c : Rule) (x : Str) : Prop := (x = c.oid ∧ numeric x = .ok true) ∨ (c.name ≠ [] ∧ lower x = lower c.name ∧ numeric x = .ok false)

theorem numeric_ne (x : Str) (b : Bool) (h : numeric x = .ok b) : x ≠ [] := by rintro rfl; simp [numeric] at h

/-- the effect of any lookup -/
theorem find_minv (r : MReg) (h : MInv lower r) (x : Str) :
    MInv lower (r.find lower x).1 ∧ (r.find lower x).1.oidC = r.oidC ∧ (r.find lower x).1.nameC = r.nameC ∧
    (∀ y o, r.oidO.get? y = some o → (r.find lower x).1.oidO.get? y = some o) ∧
    (∀ k o, abs r.nameO k = some o → abs (r.find lower x).1.nameO k = some o) ∧
    (∀ c, Knows lower r c → IdentOf lower c x → ∃ o, (r.find lower x).2 = .ok o ∧ o.cls = c ∧ HasObj lower (r.find lower x).1 o) := by
  simp only [MReg.find]
  cases hn : numeric x with
  | error e =>
    refine ⟨h, by trivial, by trivial, fun _ _ x => x, fun _ _ x => x, ?_⟩
    rintro c _ (⟨_, hx⟩ | ⟨_, _, hx⟩) <;> rw [hn] at hx <;> simp at hx
  | ok b =>
    have hne := numeric_ne x b hn
    cases b with
    | true =>
      simp only
      have hid : ∀ c, IdentOf lower c x → x = c.oid := by
        rintro c (⟨a, _⟩ | ⟨_, _, hx⟩)
        · exact a
        · rw [hn] at hx; simp at hx
      cases ho : r.oidO.get? x with
      | some o =>
        simp only
        refine ⟨h, by trivial, by trivial, fun _ _ x => x, fun _ _ x => x, ?_⟩
        intro c hk hi
        have := hid c hi
        obtain ⟨a, b⟩ := h.oo x o ho
        have hc := hk.1 (this ▸ hne)
        rw [← this, a] at hc
        simp at hc
        refine ⟨o, rfl, hc, ?_, b⟩
        intro _
        rw [hc, ← this]; exact ho
      | none =>
        simp only
        cases hc : r.oidC.get? x with
        | none =>
          refine ⟨h, by trivial, by trivial, fun _ _ x => x, fun _ _ x => x, ?_⟩
          intro c hk hi
          have := hid c hi
          have hc' := hk.1 (this ▸ hne)
          rw [← this, hc] at hc'; simp at hc'
        | some c0 =>
          simp only
          obtain ⟨e1, e2, e3⟩ := h.oc x c0 hc
          obtain ⟨r', hr, hi, a, b, d, e, f, g⟩ := instantiate_minv lower r h c0 (fun _ => by rw [e1]; exact ⟨hc, ho⟩)
            (fun hnm => ⟨e3 hnm, by
              cases hh : abs r.nameO (lower c0.name) with
              | none => rfl
              | some o =>
                obtain ⟨p, q⟩ := h.no _ o hh
                rw [e3 hnm] at p
                simp at p
                have := q (by rw [← p, e1]; exact e2)
                rw [← p, e1, ho] at this; simp at this⟩)
          rw [hr]
          refine ⟨hi, a, b, d, e, ?_⟩
          intro c hk hid'
          have hx := hid c hid'
          have hc' := hk.1 (hx ▸ hne)
          rw [← hx, hc] at hc'
          simp at hc'
          subst hc'
          exact ⟨_, by trivial, by trivial, f, g⟩
    | false =>
      simp only
      have hid : ∀ c, IdentOf lower c x → c.name ≠ [] ∧ lower x = lower c.name := by
        rintro c (⟨_, hx⟩ | ⟨a, b, _⟩)
        · rw [hn] at hx; simp at hx
        · exact ⟨a, b⟩
      have hget : r.nameO.get lower x = abs r.nameO (lower x) := by
        simp only [CIDict.get, getItem_eq lower _ h.io]
        cases abs r.nameO (lower x) <;> rfl
      rw [hget]
      cases ho : abs r.nameO (lower x) with
      | some o =>
        simp only
        refine ⟨h, by trivial, by trivial, fun _ _ x => x, fun _ _ x => x, ?_⟩
        intro c hk hi
        obtain ⟨h1, h2⟩ := hid c hi
        obtain ⟨a, b⟩ := h.no _ o ho
        have hc := hk.2 h1
        rw [← h2, a] at hc
        simp at hc
        refine ⟨o, rfl, hc, b, ?_⟩
        intro _
        rw [hc, ← h2]; exact ho
      | none =>
        simp only
        rw [getItem_eq lower _ h.ic]
        cases hc : abs r.nameC (lower x) with
        | none =>
          refine ⟨h, by trivial, by trivial, fun _ _ x => x, fun _ _ x => x, ?_⟩
          intro c hk hi
          obtain ⟨h1, h2⟩ := hid c hi
          have hc' := hk.2 h1
          rw [← h2, hc] at hc'; simp at hc'
        | some c0 =>
          simp only
          obtain ⟨e1, e2, e3⟩ := h.nc _ c0 hc
          obtain ⟨r', hr, hi, a, b, d, e, f, g⟩ := instantiate_minv lower r h c0
            (fun hnm => ⟨e3 hnm, by
              cases hh : r.oidO.get? c0.oid with
              | none => rfl
              | some o =>
                obtain ⟨p, q⟩ := h.oo _ o hh
                rw [e3 hnm] at p
                simp at p
                have := q (by rw [← p]; exact e2)
                rw [← p, e1, ho] at this; simp at this⟩)
            (fun _ => by rw [e1]; exact ⟨hc, ho⟩)
          rw [hr]
          refine ⟨hi, a, b, d, e, ?_⟩
          intro c hk hid'
          obtain ⟨h1, h2⟩ := hid c hid'
          have hc' := hk.2 h1
          rw [← h2, hc] at hc'
          simp at hc'
          subst hc'
          exact ⟨_, by trivial, by trivial, f, g⟩

end Registry

/-- every registration in the history is accepted -/
def AllAccepted (lower : Str → Str) (r : MReg) : List MOp → Prop
  | [] => True
  | .register c :: ops => (r.register lower c).2 = .ok () ∧ AllAccepted lower (r.register lower c).1 ops
  | .find i :: ops => AllAccepted lower (r.find lower i).1 ops

namespace Registry
open CIDict

theorem run_minv (ops : List MOp) (r : MReg) (h : MInv lower r) (hok : AllAccepted lower r ops) :
    MInv lower (r.run lower ops) ∧ (∀ c, Knows lower r c → Knows lower (r.run lower ops) c) ∧ (∀ o, HasObj lower r o → HasObj lower (r.run lower ops) o) ∧
    (∀ c, MOp.register c ∈ ops → Knows lower (r.run lower ops) c) := by
  induction ops generalizing r with
  | nil => exact ⟨h, fun _ x => x, fun _ x => x, by simp⟩
  | cons op ops ih =>
    cases op with
    | register c =>
      obtain ⟨a, b, c', d, e, f, g⟩ := register_minv lower r h c hok.1
      obtain ⟨i1, i2, i3, i4⟩ := ih _ a hok.2
      refine ⟨i1, ?_, ?_, ?_⟩
      · intro x hx
        exact i2 x ⟨fun hn => b _ _ (hx.1 hn), fun hn => c' _ _ (hx.2 hn)⟩
      · intro o ho
        exact i3 o ⟨fun hn => by rw [d]; exact ho.1 hn, fun hn => by rw [e]; exact ho.2 hn⟩
      · intro x hx
        rcases List.mem_cons.1 hx with hx | hx
        · cases hx; exact i2 c ⟨f, g⟩
        · exact i4 x hx
    | find i =>
      obtain ⟨a, b, c', d, e, _⟩ := find_minv lower r h i
      obtain ⟨i1, i2, i3, i4⟩ := ih _ a hok
      refine ⟨i1, ?_, ?_, ?_⟩
      · intro x hx
        exact i2 x ⟨fun hn => by rw [b]; exact hx.1 hn, fun hn => by rw [c']; exact hx.2 hn⟩
      · intro o ho
        exact i3 o ⟨fun hn => d _ _ (ho.1 hn), fun hn => e _ _ (ho.2 hn)⟩
      · intro x hx
        rcases List.mem_cons.1 hx with hx | hx
        · cases hx
        · exact i4 x hx

end Registry

/-- **C32 (matching rules).** In any history in which all registrations are accepted, looking a registered rule up – by OID or by name in any casing – returns
an instance of that rule, and always the same one, whatever is registered or looked up in between. -/
theorem c32_rules_partial (ops1 ops2 : List MOp) (c : Rule) (hreg : MOp.register c ∈ ops1) (i j : Str) (hi : IdentOf lower c i) (hj : IdentOf lower c j)
    (h1 : AllAccepted lower MReg.empty ops1) :
    let q := ((MReg.empty.run lower ops1).find lower i)
    AllAccepted lower q.1 ops2 →
    ∃ o, q.2 = .ok o ∧ o.cls = c ∧ ((q.1.run lower ops2).find lower j).2 = .ok o := by
  intro q h2
  obtain ⟨a, _, _, d⟩ := run_minv lower ops1 _ (minv_empty lower) h1
  obtain ⟨f1, f2, f3, f4, f5, f6⟩ := find_minv lower _ a i
  obtain ⟨o, ho, hc, hobj⟩ := f6 c (d c hreg) hi
  refine ⟨o, ho, hc, ?_⟩
  obtain ⟨g1, g2, g3, _⟩ := run_minv lower ops2 q.1 f1 h2
  have hk : Knows lower (q.1.run lower ops2) c := g2 c ⟨fun hn => by rw [f2]; exact (d c hreg).1 hn, fun hn => by rw [f3]; exact (d c hreg).2 hn⟩
  obtain ⟨o', ho', hc', hobj'⟩ := (find_minv lower _ g1 j).2.2.2.2.2 c hk hj
  have hold := g3 o hobj
  obtain ⟨k1, k2, k3, k4, k5, _⟩ := find_minv lower _ g1 j
  rw [ho']
  congr 1
  rcases hj with ⟨e1, e2⟩ | ⟨e1, _, _⟩
  · have hne : c.oid ≠ [] := e1 ▸ numeric_ne j _ e2
    have a1 := hobj'.1 (hc' ▸ hne)
    have a2 := k4 _ _ (hold.1 (hc ▸ hne))
    rw [hc'] at a1
    rw [hc] at a2
    rw [a1] at a2
    simpa using a2
  · have a1 := hobj'.2 (hc' ▸ e1)
    have a2 := k5 _ _ (hold.2 (hc ▸ e1))
    rw [hc'] at a1
    rw [hc] at a2
    rw [a1] at a2
    simpa using a2

/-- C32 is false after a refused registration of a matching rule: a rule refused because its name is taken still becomes reachable by its OID, and once it has
been looked up, the *name* of the first rule gives the refused one. -/
theorem c32_rule_hijacked (oid1 oid2 name : Str) (h1 : numeric oid1 = .ok true) (h2 : numeric oid2 = .ok true) (hn : numeric name = .ok false) (hne : oid1 ≠ oid2) :
    let r1 := (MReg.empty.register lower ⟨oid1, name⟩).1
    let r2 := r1.register lower ⟨oid2, name⟩
    r2.2 = .error .ldapSchema ∧
    ∃ o, o.cls = ⟨oid2, name⟩ ∧ ((r2.1.find lower oid2).1.find lower name).2 = .ok o := by
  have n1 : oid1 ≠ [] := numeric_ne _ _ h1
  have n2 : oid2 ≠ [] := numeric_ne _ _ h2
  have n3 : name ≠ [] := numeric_ne _ _ hn
  refine ⟨?_, ⟨0, ⟨oid2, name⟩⟩, rfl, ?_⟩ <;>
  simp [MReg.register, MReg.empty, MReg.find, MReg.instantiate, CIDict.contains, CIDict.getItem, CIDict.get, CIDict.setItem, CIDict.empty, PDict.get?, PDict.set,
      n1, n2, n3, hne, h2, hn]

/-! ### instances -/

example : numeric (str "2.5.4.3") = .ok true ∧ numeric (str "cn") = .ok false := by decide

/-- two accepted elements and one refused -/
example :
    let es : List (Elem Unit) := [⟨str "2.5.4.3", [str "cn", str "commonName"], ()⟩, ⟨str "2.5.4.4", [str "sn"], ()⟩, ⟨str "2.5.4.5", [str "serial", str "sn"], ()⟩]
    let r := (Reg.empty : Reg Unit).run id es
    r.2 = [.ok (), .ok (), .error .ldapSchema] ∧ r.1.find id (str "commonName") = .ok (.elem ⟨str "2.5.4.3", [str "cn", str "commonName"], ()⟩) ∧
    r.1.find id (str "2.5.4.5") = .ok (.elem ⟨str "2.5.4.5", [str "serial", str "sn"], ()⟩) := by
  decide

example : AllAccepted id MReg.empty [.register ⟨str "2.5.13.2", str "caseIgnoreMatch"⟩, .find (str "2.5.13.2"), .register ⟨str "2.5.13.5", str "caseExactMatch"⟩] :=
  ⟨by decide, by refine ⟨by decide, trivial⟩⟩
example : IdentOf id ⟨str "2.5.13.2", str "caseIgnoreMatch"⟩ (str "caseIgnoreMatch") := .inr ⟨by decide, rfl, by decide⟩

end Laurelin.Props
