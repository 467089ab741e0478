import Verif.Spec.Typed
import Verif.Lemmas.CaseIgnoreDict
namespace Laurelin.Props

namespace TyP
open Typed Spec.TypedS
variable {lower : Str → Str} {kind : Kind}

theorem isStr_iff (v : PVal) : isStr v = true ↔ IsStr v := by
  cases v <;> simp [isStr, IsStr]

theorem all_iff (l : List PVal) : l.all isStr = true ↔ ∀ x ∈ l, IsStr x := by
  simp only [List.all_eq_true, isStr_iff]

theorem mem_set {V : Type} {d : PDict Str V} {k : Str} {v : V} {p : Str × V} : p ∈ PDict.set d k v → p ∈ d ∨ p = (k, v) := by
  induction d with
  | nil => simp [PDict.set]
  | cons q d ih =>
    obtain ⟨a, w⟩ := q
    simp only [PDict.set]
    split
    · rename_i h
      subst h
      simp only [List.mem_cons]
      rintro (rfl | h)
      · exact .inr rfl
      · exact .inl (.inr h)
    · simp only [List.mem_cons]
      rintro (rfl | h)
      · exact .inl (.inl rfl)
      · exact (ih h).imp .inr id

theorem mem_erase {V : Type} {d : PDict Str V} {k : Str} {p : Str × V} : p ∈ PDict.erase d k → p ∈ d := by
  induction d with
  | nil => simp [PDict.erase]
  | cons q d ih =>
    obtain ⟨a, w⟩ := q
    simp only [PDict.erase]
    split
    · exact .tail _
    · simp only [List.mem_cons]
      exact Or.imp id ih

theorem mem_of_getItem {V : Type} {d : CIDict Str V} {k : Str} {v : V} (h : d.getItem lower k = .ok v) : ∃ k', (k', v) ∈ d.data := by
  simp only [CIDict.getItem] at h
  split at h
  · cases h
  · rename_i k' _
    split at h
    · cases h
    · rename_i v' hv
      cases h
      exact ⟨k', PDict.mem_of_get? _ _ _ hv⟩

theorem mem_del {V : Type} {d d' : CIDict Str V} {k : Str} (h : d.delItem lower k = .ok d') : ∀ p ∈ d'.data, p ∈ d.data := by
  simp only [CIDict.delItem] at h
  split at h
  · cases h
  · split at h
    · cases h
    · cases h
      exact fun p hp => mem_erase hp

/-- what the steps keep -/
structure Closed (lower : Str → Str) (kind : Kind) (P : St → Prop) : Prop where
  alloc : ∀ st l, kind = .object ∨ l = [] → P st → P { st with its := st.its ++ [l] }
  set : ∀ st a v, kind = .attrs → validateValues st v = .ok () → P st → P { st with d := st.d.setItem lower a v }
  setNew : ∀ st a r, kind = .object → (st.contents r).all isStr = true → P st → P ⟨st.mine, st.its ++ [st.contents r], st.d.setItem lower a (.list (.its st.its.length))⟩
  del : ∀ st a d, st.d.delItem lower a = .ok d → P st → P { st with d := d }
  clear : ∀ st, P st → P { st with d := CIDict.empty }

variable {P : St → Prop}

/-- the list just made -/
theorem contents_new (st : St) (l : List PVal) (d : CIDict Str PVal) : (St.mk st.mine (st.its ++ [l]) d).contents (.its st.its.length) = l := by
  simp [St.contents]

theorem attrsSet_object (st : St) (k : PVal) (r : Ref) : attrsSet lower { st with its := st.its ++ [st.contents r] } k (.list (.its st.its.length)) =
    match k with
    | .text a => if (st.contents r).all isStr then (⟨st.mine, st.its ++ [st.contents r], st.d.setItem lower a (.list (.its st.its.length))⟩, .ok ()) else ({ st with its := st.its ++ [st.contents r] }, .error .typeError)
    | _ => ({ st with its := st.its ++ [st.contents r] }, .error .typeError) := by
  cases k with
  | text a =>
    simp only [attrsSet, validateValues, contents_new]
    by_cases h : (st.contents r).all isStr = true
    · simp only [h, if_true]
    · simp only [if_neg h]
  | _ => rfl

theorem setItem_closed (h : Closed lower kind P) (st : St) (hs : P st) (k v : PVal) : P (setItem lower kind st k v).1 := by
  cases kind with
  | attrs =>
    simp only [setItem, attrsSet]
    cases k with
    | text a =>
      dsimp only
      cases hv : validateValues st v with
      | error e => exact hs
      | ok u => exact h.set st a v rfl hv hs
    | _ => exact hs
  | object =>
    cases v with
    | list r =>
      simp only [setItem, attrsSet_object]
      cases k with
      | text a =>
        dsimp only
        split
        · rename_i ha
          exact h.setNew st a r rfl ha hs
        · exact h.alloc st _ (.inl rfl) hs
      | _ => exact h.alloc st _ (.inl rfl) hs
    | _ => exact hs

theorem updateLoop_closed (h : Closed lower kind P) : ∀ (items : List (PVal × PVal)) (st : St), P st → P (updateLoop lower kind st items).1 := by
  intro items
  induction items with
  | nil => exact fun st hs => hs
  | cons p items ih =>
    obtain ⟨k, v⟩ := p
    intro st hs
    have := setItem_closed h st hs k v
    simp only [updateLoop]
    revert this
    rcases setItem lower kind st k v with ⟨st', e | u⟩
    · exact id
    · exact fun hs' => ih st' hs'

theorem updateFrom_closed (h : Closed lower kind P) (e : CIDict Str PVal) : ∀ (ks : List Str) (st : St), P st → P (updateFrom lower kind e st ks).1 := by
  intro ks
  induction ks with
  | nil => exact fun st hs => hs
  | cons k ks ih =>
    intro st hs
    simp only [updateFrom]
    cases e.getItem lower k with
    | error x => exact hs
    | ok v =>
      have := setItem_closed h st hs (.text k) v
      dsimp only
      revert this
      rcases setItem lower kind st (.text k) v with ⟨st', e | u⟩
      · exact id
      · exact fun hs' => ih st' hs'

theorem orNew_closed (h : Closed lower kind P) (st : St) (hs : P st) (v : PVal) : P (orNew st v).1 := by
  cases v <;> first | exact hs | exact h.alloc st [] (.inr rfl) hs

theorem step_closed (h : Closed lower kind P) (st : St) (hs : P st) : ∀ c, (∀ r vs, c = .change r vs → P (st.change r vs)) → P (step lower kind st c).1
  | .change r vs, hc => hc r vs rfl
  | .set k v, _ => setItem_closed h st hs k v
  | .setdefault k v, _ => by
    simp only [step, setDefault]
    cases k with
    | text a =>
      dsimp only
      have hp := orNew_closed h st hs v
      cases validateValues (orNew st v).1 (orNew st v).2 with
      | error e => exact hp
      | ok u =>
        dsimp only
        cases (orNew st v).1.d.getItem lower a with
        | ok x => exact hp
        | error x => exact setItem_closed h _ hp _ _
    | _ => exact hs
  | .update arg, _ => by
    simp only [step, update]
    cases validate st arg with
    | error e => exact hs
    | ok u =>
      cases arg with
      | other => exact hs
      | dict items => exact updateLoop_closed h items st hs
      | attrs e => exact updateFrom_closed h e _ st hs
  | .del k, _ => by
    cases k with
    | text a =>
      simp only [step]
      cases hd : st.d.delItem lower a with
      | error e => exact hs
      | ok d => exact h.del st a d hd hs
    | _ => exact hs
  | .clear, _ => h.clear st hs

theorem run_closed (h : Closed lower kind P) : ∀ (calls : List Call) (st : St), P st → (∀ st r vs, .change r vs ∈ calls → P st → P (st.change r vs)) → P (run lower kind st calls) := by
  intro calls
  induction calls with
  | nil => exact fun st hs _ => hs
  | cons c calls ih =>
    intro st hs hc
    exact ih _ (step_closed h st hs c (fun r vs he => hc st r vs (by rw [he]; exact .head _) hs)) (fun st r vs hm => hc st r vs (.tail _ hm))

/-- the shape of a dictionary, whatever the program does -/
structure Shape (lower : Str → Str) (kind : Kind) (st : St) : Prop where
  inv : CIDict.Inv lower st.d
  own : kind = .object → ∀ p ∈ st.d.data, ∃ n, p.2 = .list (.its n) ∧ n < st.its.length
  apart : kind = .object → ∀ p ∈ st.d.data, ∀ q ∈ st.d.data, p.2 = q.2 → p = q

theorem inv_del {d d' : CIDict Str PVal} {k : Str} (hi : CIDict.Inv lower d) (h : d.delItem lower k = .ok d') : CIDict.Inv lower d' := by
  cases hk : CIDict.abs d (lower k) with
  | none => rw [CIDict.del_none lower d hi k hk] at h; cases h
  | some v =>
    obtain ⟨d'', h1, h2, _⟩ := CIDict.del_some lower d hi k v hk
    rw [h1] at h
    cases h
    exact h2

theorem shape_closed : Closed lower kind (Shape lower kind) where
  alloc st l _ hs := ⟨hs.inv, fun hk p hp => (by
    obtain ⟨n, h1, h2⟩ := hs.own hk p hp
    exact ⟨n, h1, by simp; omega⟩), hs.apart⟩
  set st a v hk _ hs := ⟨CIDict.inv_set lower _ _ _ hs.inv, fun h => (by rw [hk] at h; cases h), fun h => (by rw [hk] at h; cases h)⟩
  setNew st a r hk _ hs := by
    refine ⟨CIDict.inv_set lower _ _ _ hs.inv, fun _ p hp => ?_, fun _ p hp q hq hpq => ?_⟩
    · rcases mem_set hp with hp | rfl
      · obtain ⟨n, h1, h2⟩ := hs.own hk p hp
        exact ⟨n, h1, by simp; omega⟩
      · exact ⟨_, rfl, by simp⟩
    · have hnew : ∀ p ∈ st.d.data, p.2 ≠ .list (.its st.its.length) := fun p hp he => by
        obtain ⟨n, h1, h2⟩ := hs.own hk p hp
        rw [h1] at he
        cases he
        omega
      rcases mem_set hp with hp | rfl <;> rcases mem_set hq with hq | rfl
      · exact hs.apart hk p hp q hq hpq
      · exact absurd hpq (hnew p hp)
      · exact absurd hpq.symm (hnew q hq)
      · rfl
  del st a d hd hs := ⟨inv_del hs.inv hd, fun hk p hp => hs.own hk p (mem_del hd p hp), fun hk p hp q hq => hs.apart hk p (mem_del hd p hp) q (mem_del hd q hq)⟩
  clear st _ := ⟨CIDict.inv_empty lower, fun _ p hp => (by cases hp), fun _ p hp => (by cases hp)⟩

theorem shape_change (st : St) (r : Ref) (vs : List PVal) (hs : Shape lower kind st) : Shape lower kind (st.change r vs) := by
  cases r with
  | mine n => exact ⟨hs.inv, hs.own, hs.apart⟩
  | its n =>
    refine ⟨hs.inv, fun hk p hp => ?_, hs.apart⟩
    obtain ⟨m, h1, h2⟩ := hs.own hk p hp
    exact ⟨m, h1, by simpa [St.change] using h2⟩

theorem shape_init (mine : Nat → List PVal) : Shape lower kind (St.init mine) :=
  ⟨CIDict.inv_empty lower, fun _ p hp => (by cases hp), fun _ p hp => (by cases hp)⟩

theorem shape_of (h : Reached lower kind st) : Shape lower kind st := by
  obtain ⟨mine, calls, rfl⟩ := h
  exact run_closed shape_closed calls _ (shape_init mine) (fun st r vs _ => shape_change st r vs)

/-- everything held conforms -/
def Good (lower : Str → Str) (kind : Kind) (st : St) : Prop := Shape lower kind st ∧ ∀ p ∈ st.d.data, Conforms kind st p.2

theorem contents_alloc {st : St} {l : List PVal} {d : CIDict Str PVal} {r : Ref} (h : l = [] ∨ ∀ n, r = .its n → n < st.its.length) : (St.mk st.mine (st.its ++ [l]) d).contents r = st.contents r := by
  cases r with
  | mine n => rfl
  | its n =>
    simp only [St.contents]
    by_cases hn : n < st.its.length
    · simp [List.getD, List.getElem?_append_left hn]
    · rcases h with rfl | h
      · have : st.its.length ≤ n := by omega
        simp only [List.getD, List.getElem?_append_right this, List.getElem?_eq_none this]
        cases n - st.its.length <;> rfl
      · exact absurd (h n rfl) hn

theorem conforms_alloc {st : St} (hs : Shape lower kind st) {l : List PVal} {d : CIDict Str PVal} (hl : kind = .object ∨ l = []) {p : Str × PVal} (hp : p ∈ st.d.data) (hc : Conforms kind st p.2) :
    Conforms kind ⟨st.mine, st.its ++ [l], d⟩ p.2 := by
  rcases hc with ⟨r, h1, h2⟩ | h
  · refine .inl ⟨r, h1, ?_⟩
    rw [contents_alloc]
    · exact h2
    · rcases hl with hk | hl
      · obtain ⟨n, h3, h4⟩ := hs.own hk p hp
        rw [h1] at h3
        cases h3
        exact .inr (fun m hm => by cases hm; exact h4)
      · exact .inl hl
  · exact .inr h

theorem validate_conforms {st : St} {v : PVal} (h : validateValues st v = .ok ()) : Conforms .attrs st v := by
  cases v with
  | deleteAll => exact .inr ⟨rfl, rfl⟩
  | list r =>
    simp only [validateValues] at h
    split at h
    · rename_i ha
      exact .inl ⟨r, rfl, (all_iff _).1 ha⟩
    · cases h
  | _ => cases h

theorem good_closed : Closed lower kind (Good lower kind) where
  alloc st l hl hs := ⟨shape_closed.alloc st l hl hs.1, fun p hp => conforms_alloc hs.1 hl hp (hs.2 p hp)⟩
  set st a v hk hv hs := ⟨shape_closed.set st a v hk hv hs.1, fun p hp => (by
    subst hk
    rcases mem_set hp with hp | rfl
    · exact hs.2 p hp
    · exact validate_conforms hv)⟩
  setNew st a r hk ha hs := ⟨shape_closed.setNew st a r hk ha hs.1, fun p hp => (by
    rcases mem_set hp with hp | rfl
    · exact conforms_alloc hs.1 (.inl hk) hp (hs.2 p hp)
    · refine .inl ⟨_, rfl, ?_⟩
      rw [contents_new]
      exact (all_iff _).1 ha)⟩
  del st a d hd hs := ⟨shape_closed.del st a d hd hs.1, fun p hp => hs.2 p (mem_del hd p hp)⟩
  clear st hs := ⟨shape_closed.clear st hs.1, fun p hp => (by cases hp)⟩

theorem good_change (st : St) (r : Ref) (vs : List PVal) (hv : (kind = .object → ∃ n, r = .its n) → ∀ x ∈ vs, IsStr x) (hs : Good lower kind st) : Good lower kind (st.change r vs) := by
  refine ⟨shape_change st r vs hs.1, fun p hp => ?_⟩
  have hd : (st.change r vs).d = st.d := by cases r <;> rfl
  rw [hd] at hp
  rcases hs.2 p hp with ⟨r', h1, h2⟩ | h
  · refine .inl ⟨r', h1, ?_⟩
    by_cases hm : kind = .object → ∃ n, r = .its n
    · have hv' := hv hm
      cases r with
      | mine n =>
        cases r' with
        | mine m =>
          simp only [St.change, St.contents]
          split
          · exact hv'
          · exact h2
        | its m => exact h2
      | its n =>
        cases r' with
        | mine m => exact h2
        | its m =>
          simp only [St.change, St.contents, List.getD, List.getElem?_set]
          intro x hx
          split at hx
          · split at hx
            · exact hv' x hx
            · cases hx
          · exact h2 x hx
    · have hk : kind = .object := Classical.byContradiction (fun h => hm (fun h' => absurd h' h))
      cases r with
      | its n => exact absurd (fun _ => ⟨n, rfl⟩) hm
      | mine n =>
        obtain ⟨m, h3, _⟩ := hs.1.own hk p hp
        rw [h1] at h3
        cases h3
        exact h2
  · exact .inr h

theorem shows_eq (st : St) (hs : Shape lower kind st) (x : Str) : shows lower st x = (CIDict.abs st.d (lower x)).map (valueShows st) := by
  simp only [shows, CIDict.getItem_eq lower st.d hs.inv x]
  cases CIDict.abs st.d (lower x) with
  | none => rfl
  | some v => cases v <;> rfl

theorem abs_mem {d : CIDict Str PVal} {x : Str} {v : PVal} (h : CIDict.abs d x = some v) : ∃ k, (k, v) ∈ d.data := by
  simp only [CIDict.abs] at h
  split at h
  · cases h
  · rename_i k _
    exact ⟨k, PDict.mem_of_get? _ _ _ h⟩

theorem valueShows_alloc {st : St} (hs : Shape lower kind st) {l : List PVal} {d : CIDict Str PVal} (hl : kind = .object ∨ l = []) {k : Str} {v : PVal} (hp : (k, v) ∈ st.d.data) :
    valueShows ⟨st.mine, st.its ++ [l], d⟩ v = valueShows st v := by
  cases v with
  | list r =>
    simp only [valueShows]
    rw [contents_alloc]
    rcases hl with hk | hl
    · obtain ⟨n, h3, h4⟩ := hs.own hk _ hp
      cases h3
      exact .inr (fun m hm => by cases hm; exact h4)
    · exact .inl hl
  | _ => rfl

theorem shows_alloc {st : St} (hs : Shape lower kind st) (l : List PVal) (hl : kind = .object ∨ l = []) (x : Str) : shows lower { st with its := st.its ++ [l] } x = shows lower st x := by
  rw [shows_eq _ (shape_closed.alloc st l hl hs), shows_eq _ hs]
  cases h : CIDict.abs st.d (lower x) with
  | none => simp only [Option.map_none]
  | some v =>
    obtain ⟨k, hk⟩ := abs_mem h
    simp only [Option.map_some, valueShows_alloc hs hl hk]

theorem put_map {st st' : St} (hs : Shape lower kind st) (hs' : Shape lower kind st') (a : Str) (v : PVal) (hd : st'.d = st.d.setItem lower a v) (hsame : ∀ k w, (k, w) ∈ st.d.data → valueShows st' w = valueShows st w) (x : Str) :
    shows lower st' x = if lower x = lower a then some (valueShows st' v) else shows lower st x := by
  rw [shows_eq _ hs', shows_eq _ hs, hd, CIDict.abs_set lower _ _ _ hs.inv]
  simp only [Spec.FoldMap.put]
  by_cases h : lower x = lower a
  · simp only [h, if_true, Option.map_some]
  · simp only [h, if_false]
    cases h' : CIDict.abs st.d (lower x) with
    | none => rfl
    | some w =>
      obtain ⟨k, hk⟩ := abs_mem h'
      simp only [Option.map_some, hsame k w hk]

/-- one assignment -/
theorem set_step (st : St) (hs : Shape lower kind st) (k v : PVal) :
    (∀ e, (setItem lower kind st k v).2 = .error e → e = .typeError ∧ ¬((∃ a, k = .text a) ∧ Conforms kind st v) ∧ ∀ x, shows lower (setItem lower kind st k v).1 x = shows lower st x) ∧
    ((setItem lower kind st k v).2 = .ok () → Conforms kind st v ∧ ∃ a, k = .text a ∧ ∀ x, shows lower (setItem lower kind st k v).1 x = if lower x = lower a then some (valueShows st v) else shows lower st x) := by
  have hs' := setItem_closed shape_closed st hs k v
  cases kind with
  | attrs =>
    cases k with
    | text a =>
      revert hs'
      simp only [setItem, attrsSet]
      cases hv : validateValues st v with
      | error e =>
        intro _
        refine ⟨fun e' he => ?_, fun h => (by cases h)⟩
        have he' : e = .typeError := by
          cases v with
          | deleteAll => cases hv
          | list r =>
            simp only [validateValues] at hv
            split at hv
            · cases hv
            · cases hv; rfl
          | _ => cases hv; rfl
        cases he
        refine ⟨he', fun hx => ?_, fun _ => rfl⟩
        rcases hx.2 with ⟨r, rfl, hr⟩ | ⟨_, rfl⟩
        · simp only [validateValues, (all_iff _).2 hr, if_true] at hv
          cases hv
        · cases hv
      | ok u =>
        intro hs'
        refine ⟨fun e' he => (by cases he), fun _ => ⟨validate_conforms hv, a, rfl, fun x => ?_⟩⟩
        exact put_map hs hs' a v rfl (fun _ _ _ => by rename_i w _; cases w <;> rfl) x
    | _ => exact ⟨fun e he => (by cases he; exact ⟨rfl, fun h => (by obtain ⟨⟨a, h⟩, _⟩ := h; cases h), fun _ => rfl⟩), fun h => (by cases h)⟩
  | object =>
    cases v with
    | list r =>
      revert hs'
      simp only [setItem, attrsSet_object]
      cases k with
      | text a =>
        dsimp only
        by_cases ha : (st.contents r).all isStr = true
        · simp only [ha, if_true]
          intro hs'
          refine ⟨fun e' he => (by cases he), fun _ => ⟨.inl ⟨r, rfl, (all_iff _).1 ha⟩, a, rfl, fun x => ?_⟩⟩
          rw [put_map hs hs' a _ rfl (fun k w hw => valueShows_alloc hs (.inl rfl) hw) x]
          simp only [valueShows, contents_new]
        · simp only [if_neg ha]
          intro _
          refine ⟨fun e' he => ?_, fun h => (by cases h)⟩
          cases he
          refine ⟨rfl, fun hx => ?_, shows_alloc hs _ (.inl rfl)⟩
          rcases hx.2 with ⟨r', h1, hr⟩ | ⟨h1, _⟩
          · cases h1
            exact ha ((all_iff _).2 hr)
          · cases h1
      | _ =>
        intro _
        exact ⟨fun e he => (by cases he; exact ⟨rfl, fun h => (by obtain ⟨⟨a, h⟩, _⟩ := h; cases h), shows_alloc hs _ (.inl rfl)⟩), fun h => (by cases h)⟩
    | _ =>
      refine ⟨fun e he => ?_, fun h => (by cases h)⟩
      cases he
      refine ⟨rfl, fun hx => ?_, fun _ => rfl⟩
      rcases hx.2 with ⟨r', h1, _⟩ | ⟨h1, _⟩
      · cases h1
      · cases h1

/-- the list object of a value exists -/
def Live (st : St) (v : PVal) : Prop := ∀ n, v = .list (.its n) → n < st.its.length

theorem set_keeps (st : St) (k v w : PVal) (hw : Live st w) : valueShows (setItem lower kind st k v).1 w = valueShows st w ∧ Live (setItem lower kind st k v).1 w := by
  have hal : ∀ l d, valueShows ⟨st.mine, st.its ++ [l], d⟩ w = valueShows st w ∧ Live ⟨st.mine, st.its ++ [l], d⟩ w := fun l d => by
    refine ⟨?_, fun n hn => ?_⟩
    · cases w with
      | list r =>
        simp only [valueShows]
        rw [contents_alloc]
        exact .inr (fun n hn => hw n (by rw [hn]))
      | _ => rfl
    · have := hw n hn
      simp
      omega
  have hd : ∀ d, valueShows { st with d := d } w = valueShows st w ∧ Live { st with d := d } w := fun d => ⟨(by cases w with | list r => (cases r <;> rfl) | _ => rfl), hw⟩
  cases kind with
  | attrs =>
    simp only [setItem, attrsSet]
    cases k with
    | text a =>
      dsimp only
      cases validateValues st v with
      | error e => exact ⟨rfl, hw⟩
      | ok u => exact hd _
    | _ => exact ⟨rfl, hw⟩
  | object =>
    cases v with
    | list r =>
      simp only [setItem, attrsSet_object]
      cases k with
      | text a =>
        dsimp only
        split
        · exact hal _ _
        · exact hal _ _
      | _ => exact hal _ _
    | _ => exact ⟨rfl, hw⟩

theorem conforms_same {st st0 : St} {v : PVal} (h : valueShows st v = valueShows st0 v) (hc : Conforms kind st0 v) : Conforms kind st v := by
  rcases hc with ⟨r, rfl, hr⟩ | hc
  · simp only [valueShows, Option.some.injEq] at h
    exact .inl ⟨r, rfl, by rw [h]; exact hr⟩
  · exact .inr hc

theorem loop_step (st0 : St) : ∀ (items : List (PVal × PVal)) (st : St), Shape lower kind st → Items kind st0 items → (∀ p ∈ items, valueShows st p.2 = valueShows st0 p.2 ∧ Live st p.2) →
    (updateLoop lower kind st items).2 = .ok () ∧ Shape lower kind (updateLoop lower kind st items).1 ∧ ∀ x, shows lower (updateLoop lower kind st items).1 x = taken lower st0 (shows lower st) items x := by
  intro items
  induction items with
  | nil => exact fun st hs _ _ => ⟨rfl, hs, fun _ => rfl⟩
  | cons p items ih =>
    obtain ⟨k, v⟩ := p
    intro st hs hi hv
    obtain ⟨⟨a, rfl⟩, hc⟩ := hi k v (.head _)
    obtain ⟨h1, h2⟩ := set_step st hs (.text a) v
    have hs' := setItem_closed shape_closed st hs (.text a) v
    have hk := fun w hw => set_keeps (lower := lower) (kind := kind) st (.text a) v w hw
    have hv1 := hv _ (.head _)
    simp only [updateLoop]
    revert h1 h2 hs' hk
    rcases setItem lower kind st (.text a) v with ⟨st', e | u⟩
    · intro h1 _ _ _
      exact absurd ⟨⟨a, rfl⟩, conforms_same hv1.1 hc⟩ (h1 e rfl).2.1
    · intro _ h2 hs' hk
      obtain ⟨_, a', ha, h3⟩ := h2 rfl
      cases ha
      obtain ⟨q1, q2, q3⟩ := ih st' hs' (fun k w hm => hi k w (.tail _ hm)) (fun q hq => (by
        obtain ⟨e1, e2⟩ := hv q (.tail _ hq)
        obtain ⟨e3, e4⟩ := hk q.2 e2
        exact ⟨e3.trans e1, e4⟩))
      refine ⟨q1, q2, fun x => ?_⟩
      simp only [q3 x, taken]
      congr 1
      funext y
      rw [h3 y, ← hv1.1]

theorem items_iff (st : St) : ∀ items, validateItems st items = .ok () ↔ Items .attrs st items := by
  intro items
  induction items with
  | nil => exact ⟨fun _ k v h => (by cases h), fun _ => rfl⟩
  | cons p items ih =>
    obtain ⟨k, v⟩ := p
    simp only [validateItems]
    constructor
    · intro h
      cases k with
      | text a =>
        simp only [validateAttr] at h
        cases hv : validateValues st v with
        | error e => rw [hv] at h; cases h
        | ok u =>
          rw [hv] at h
          intro k' v' hm
          rcases List.mem_cons.1 hm with he | hm
          · cases he
            exact ⟨⟨a, rfl⟩, validate_conforms hv⟩
          · exact ih.1 h k' v' hm
      | _ => cases h
    · intro h
      obtain ⟨⟨a, rfl⟩, hc⟩ := h k v (.head _)
      have hv : validateValues st v = .ok () := by
        rcases hc with ⟨r, rfl, hr⟩ | ⟨_, rfl⟩
        · simp only [validateValues, (all_iff _).2 hr, if_true]
        · rfl
      simp only [validateAttr, hv]
      exact ih.2 (fun k v hm => h k v (.tail _ hm))

theorem items_error (st : St) : ∀ items e, validateItems st items = .error e → e = .typeError := by
  intro items
  induction items with
  | nil => intro e h; cases h
  | cons p items ih =>
    obtain ⟨k, v⟩ := p
    intro e h
    simp only [validateItems] at h
    cases k with
    | text a =>
      simp only [validateAttr] at h
      cases hv : validateValues st v with
      | error e' =>
        rw [hv] at h
        cases h
        cases v with
        | deleteAll => cases hv
        | list r =>
          simp only [validateValues] at hv
          split at hv
          · cases hv
          · cases hv; rfl
        | _ => cases hv; rfl
      | ok u =>
        rw [hv] at h
        exact ih e h
    | _ => cases h; rfl

theorem attrs_of {st : St} {v : PVal} (h : Conforms kind st v) : Conforms .attrs st v := h.imp id (fun h => ⟨rfl, h.2⟩)

theorem loop_append (pre post : List (PVal × PVal)) : ∀ st, (updateLoop lower kind st pre).2 = .ok () → updateLoop lower kind st (pre ++ post) = updateLoop lower kind (updateLoop lower kind st pre).1 post := by
  induction pre with
  | nil => exact fun _ _ => rfl
  | cons p pre ih =>
    obtain ⟨k, v⟩ := p
    intro st
    simp only [List.cons_append, updateLoop]
    rcases setItem lower kind st k v with ⟨st', e | u⟩
    · intro h; cases h
    · exact fun h => ih st' h

theorem from_loop (e : CIDict Str PVal) (val : Str → PVal) : ∀ (ks : List Str) (st : St), (∀ k ∈ ks, e.getItem lower k = .ok (val k)) → updateFrom lower kind e st ks = updateLoop lower kind st (ks.map (fun k => (.text k, val k))) := by
  intro ks
  induction ks with
  | nil => exact fun _ _ => rfl
  | cons k ks ih =>
    intro st he
    simp only [updateFrom, List.map_cons, updateLoop, he k (.head _)]
    rcases setItem lower kind st (.text k) (val k) with ⟨st', x | u⟩
    · rfl
    · exact ih st' (fun k hk => he k (.tail _ hk))

theorem taken_in (st : St) (val : Str → PVal) (x : Str) (w : Option (List PVal)) : ∀ (ks : List Str) (s : Str → Option (Option (List PVal))), (∀ k ∈ ks, lower k = lower x → valueShows st (val k) = w) →
    ((∃ k ∈ ks, lower k = lower x) ∨ s x = some w) → taken lower st s (ks.map (fun k => (.text k, val k))) x = some w := by
  intro ks
  induction ks with
  | nil => exact fun s _ h => h.elim (fun ⟨_, h, _⟩ => by cases h) id
  | cons k ks ih =>
    intro s hv h
    refine ih _ (fun k hk => hv k (.tail _ hk)) ?_
    rcases h with ⟨k', hk', hl⟩ | h
    · rcases List.mem_cons.1 hk' with rfl | hk'
      · exact .inr (by rw [if_pos hl.symm, hv _ (.head _) hl])
      · exact .inl ⟨k', hk', hl⟩
    · by_cases hl : lower x = lower k
      · exact .inr (by rw [if_pos hl, hv _ (.head _) hl.symm])
      · exact .inr (by rw [if_neg hl, h])

theorem taken_out (st : St) (val : Str → PVal) (x : Str) : ∀ (ks : List Str) (s : Str → Option (Option (List PVal))), (∀ k ∈ ks, lower k ≠ lower x) → taken lower st s (ks.map (fun k => (.text k, val k))) x = s x := by
  intro ks
  induction ks with
  | nil => exact fun _ _ => rfl
  | cons k ks ih =>
    intro s h
    simp only [List.map_cons, taken]
    rw [ih _ (fun k hk => h k (.tail _ hk)), if_neg (fun hl => h k (.head _) hl.symm)]

/-- a list that the dictionary does not hold -/
theorem shows_change {st : St} (hs : Shape lower kind st) (r : Ref) (vs : List PVal) (x : Str) (h : ∀ k v, (k, v) ∈ st.d.data → lower k = lower x → v ≠ .list r) : shows lower (st.change r vs) x = shows lower st x := by
  rw [shows_eq _ (shape_change st r vs hs), shows_eq _ hs, show (st.change r vs).d = st.d by cases r <;> rfl]
  cases hx : CIDict.abs st.d (lower x) with
  | none => rfl
  | some v =>
    have hm : ∃ k, (k, v) ∈ st.d.data ∧ lower k = lower x := by
      simp only [CIDict.abs] at hx
      split at hx
      · cases hx
      · rename_i k hk
        exact ⟨k, PDict.mem_of_get? _ _ _ hx, (hs.inv.cas _ _ hk).1⟩
    obtain ⟨k, hk, hl⟩ := hm
    have hne := h k v hk hl
    simp only [Option.map_some, Option.some.injEq]
    cases v with
    | list r' =>
      simp only [valueShows, Option.some.injEq]
      cases r with
      | mine n =>
        cases r' with
        | mine m => simp only [St.change, St.contents, if_neg (show m ≠ n from fun hx => hne (by rw [hx]))]
        | its m => rfl
      | its n =>
        cases r' with
        | mine m => rfl
        | its m => simp only [St.change, St.contents, List.getD, List.getElem?_set_ne (show n ≠ m from fun hx => hne (by rw [hx]))]
    | _ => rfl

end TyP

section
open Typed Spec.TypedS TyP
variable (lower : Str → Str)

/-- **C105.** Whatever is passed to the calls, an object holds lists of `str` and `bytes` only, and so does an `AttrsDict` (or `DELETE_ALL`); provided that the program puts nothing else into the object's lists, or
into any list it has given to an `AttrsDict`. -/
theorem c105_typed_partial (kind : Kind) (mine : Nat → List PVal) (calls : List Call) (h : Fair kind calls) : Typed lower kind (run lower kind (St.init mine) calls) := by
  have hg : Good lower kind (run lower kind (St.init mine) calls) :=
    run_closed good_closed calls _ ⟨shape_init mine, fun p hp => (by cases hp)⟩ (fun st r vs hm => good_change st r vs (h r vs hm))
  refine ⟨fun k v hm => hg.2 (k, v) hm, fun k v hk => ?_⟩
  obtain ⟨k', hm⟩ := mem_of_getItem hk
  exact hg.2 _ hm

/-- **C105 (assignment).** It raises `TypeError` and what is shown is as before, or the name and the values conform and they are shown under that name, the rest as before. -/
theorem c105_assign (kind : Kind) (st : St) (hr : Reached lower kind st) (k v : PVal) :
    ((setItem lower kind st k v).2 = .ok () ↔ (∃ a, k = .text a) ∧ Conforms kind st v) ∧
    (∀ e, (setItem lower kind st k v).2 = .error e → e = .typeError ∧ ∀ x, shows lower (setItem lower kind st k v).1 x = shows lower st x) ∧
    ∀ a, k = .text a → (setItem lower kind st k v).2 = .ok () → ∀ x, shows lower (setItem lower kind st k v).1 x = if lower x = lower a then some (valueShows st v) else shows lower st x := by
  obtain ⟨h1, h2⟩ := set_step st (shape_of hr) k v
  refine ⟨⟨fun h => ?_, fun h => ?_⟩, fun e he => ⟨(h1 e he).1, (h1 e he).2.2⟩, fun a ha h => ?_⟩
  · obtain ⟨hc, a, ha, _⟩ := h2 h
    exact ⟨⟨a, ha⟩, hc⟩
  · cases he : (setItem lower kind st k v).2 with
    | error e => exact absurd h (h1 e he).2.1
    | ok u => rfl
  · obtain ⟨_, a', ha', hx⟩ := h2 h
    cases ha.symm.trans ha'
    exact hx

/-- **C105 (update).** Items that conform are all taken over. -/
theorem c105_update (kind : Kind) (st : St) (hr : Reached lower kind st) (items : List (PVal × PVal)) (hl : ∀ k n, (k, .list (.its n)) ∈ items → n < st.its.length) (hi : Items kind st items) :
    (update lower kind st (.dict items)).2 = .ok () ∧ ∀ x, shows lower (update lower kind st (.dict items)).1 x = taken lower st (shows lower st) items x := by
  have hv : validateItems st items = .ok () := (items_iff st items).2 (fun k v hm => ⟨(hi k v hm).1, attrs_of (hi k v hm).2⟩)
  simp only [update, validate, hv]
  obtain ⟨h1, _, h2⟩ := loop_step st items st (shape_of hr) hi (fun p hp => ⟨rfl, fun n hn => hl p.1 n (by rw [← hn]; exact hp)⟩)
  exact ⟨h1, h2⟩

/-- **C105 (update refused).** If an item is of no use to an `AttrsDict`, nothing at all is done. -/
theorem c105_update_refused (kind : Kind) (st : St) (items : List (PVal × PVal)) (hi : ¬Items .attrs st items) :
    update lower kind st (.dict items) = (st, .error .typeError) ∧ update lower kind st .other = (st, .error .typeError) := by
  refine ⟨?_, rfl⟩
  simp only [update, validate]
  cases hv : validateItems st items with
  | ok u => exact absurd ((items_iff st items).1 hv) hi
  | error e => rw [items_error st items e hv]

/-- **C105, finding.** `DELETE_ALL` passes the check and is refused when its turn comes: an object has taken over the items before. -/
theorem c105_update_cut (st : St) (hr : Reached lower .object st) (pre post : List (PVal × PVal)) (k : PVal) (hl : ∀ k n, (k, .list (.its n)) ∈ pre → n < st.its.length) (hpre : Items .object st pre)
    (hall : Items .attrs st (pre ++ (k, .deleteAll) :: post)) :
    (update lower .object st (.dict (pre ++ (k, .deleteAll) :: post))).2 = .error .typeError ∧
    ∀ x, shows lower (update lower .object st (.dict (pre ++ (k, .deleteAll) :: post))).1 x = taken lower st (shows lower st) pre x := by
  simp only [update, validate, (items_iff st _).2 hall]
  obtain ⟨h1, _, h2⟩ := loop_step st pre st (shape_of hr) hpre (fun p hp => ⟨rfl, fun n hn => hl p.1 n (by rw [← hn]; exact hp)⟩)
  rw [loop_append pre _ st h1]
  exact ⟨rfl, h2⟩

/-- **C105 (update with another attribute dictionary).** -/
theorem c105_update_attrs (kind : Kind) (st : St) (hr : Reached lower kind st) (e : CIDict Str PVal) (hi : CIDict.Inv lower e) (hk : ∀ k ∈ PDict.keys e.data, ∃ v, e.getItem lower k = .ok v)
    (he : ∀ k v, e.getItem lower k = .ok v → Conforms kind st v ∧ Live st v) :
    (update lower kind st (.attrs e)).2 = .ok () ∧ (∀ x v, e.getItem lower x = .ok v → shows lower (update lower kind st (.attrs e)).1 x = some (valueShows st v)) ∧
    ∀ x err, e.getItem lower x = .error err → shows lower (update lower kind st (.attrs e)).1 x = shows lower st x := by
  let val : Str → PVal := fun k => match e.getItem lower k with | .ok v => v | .error _ => .none
  have hval : ∀ k v, e.getItem lower k = .ok v → val k = v := fun k v h => by simp only [val, h]
  have hget : ∀ k ∈ PDict.keys e.data, e.getItem lower k = .ok (val k) := fun k hm => by
    obtain ⟨v, hv⟩ := hk k hm
    rw [hval k v hv, hv]
  have hl : ∀ x y, lower x = lower y → e.getItem lower x = e.getItem lower y := fun x y h => by simp only [CIDict.getItem, h]
  simp only [update, validate, from_loop e val _ st hget]
  obtain ⟨h1, _, h2⟩ := loop_step st ((PDict.keys e.data).map (fun k => (.text k, val k))) st (shape_of hr)
    (fun k v hm => by
      obtain ⟨k', hk', heq⟩ := List.mem_map.1 hm
      cases heq
      exact ⟨⟨_, rfl⟩, (he k' _ (hget k' hk')).1⟩)
    (fun p hp => by
      obtain ⟨k', hk', heq⟩ := List.mem_map.1 hp
      subst heq
      exact ⟨rfl, (he k' _ (hget k' hk')).2⟩)
  refine ⟨h1, fun x v hx => ?_, fun x err hx => ?_⟩
  · rw [h2 x]
    refine taken_in st val x (valueShows st v) _ _ (fun k _ hkl => ?_) (.inl ?_)
    · rw [hval k v ((hl k x hkl).trans hx)]
    · simp only [CIDict.getItem] at hx
      split at hx
      · cases hx
      · rename_i k hkk
        obtain ⟨h3, w, h4⟩ := hi.cas _ _ hkk
        exact ⟨k, (PDict.mem_keys_iff _ _).2 ⟨w, h4⟩, h3⟩
  · rw [h2 x]
    refine taken_out st val x _ _ (fun k hm hkl => ?_)
    have := hget k hm
    rw [hl k x hkl, hx] at this
    cases this

/-- **C105 (setdefault).** -/
theorem c105_setdefault (kind : Kind) (st : St) (hr : Reached lower kind st) (a : Str) (dflt : PVal) (hl : Live st dflt) :
    (∀ v, st.d.getItem lower a = .ok v → (dflt = .none ∨ Conforms .attrs st dflt) → (setDefault lower kind st (.text a) dflt).2 = .ok v ∧ ∀ x, shows lower (setDefault lower kind st (.text a) dflt).1 x = shows lower st x) ∧
    (shows lower st a = none → Conforms kind st dflt → (setDefault lower kind st (.text a) dflt).2 = .ok dflt ∧
      ∀ x, shows lower (setDefault lower kind st (.text a) dflt).1 x = if lower x = lower a then some (valueShows st dflt) else shows lower st x) ∧
    (dflt ≠ .none → ¬Conforms .attrs st dflt → (setDefault lower kind st (.text a) dflt).2 = .error .typeError ∧ ∀ x, shows lower (setDefault lower kind st (.text a) dflt).1 x = shows lower st x) := by
  have hs := shape_of hr
  have hv : ∀ v, Conforms .attrs st v → validateValues st v = .ok () := fun v hc => by
    rcases hc with ⟨r, rfl, hr⟩ | ⟨_, rfl⟩
    · simp only [validateValues, (all_iff _).2 hr, if_true]
    · rfl
  have hnn : ∀ v, v ≠ .none → orNew st v = (st, v) := fun v h => by cases v <;> first | rfl | exact absurd rfl h
  refine ⟨fun v hget hd => ?_, fun hab hc => ?_, fun hd hc => ?_⟩
  · rcases hd with rfl | hd
    · simp only [setDefault, orNew, validateValues, contents_new, List.all_nil, if_true, hget]
      exact ⟨trivial, shows_alloc hs [] (.inr rfl)⟩
    · have hne : dflt ≠ .none := fun h => by
        subst h
        rcases hd with ⟨r, h, _⟩ | ⟨_, h⟩ <;> cases h
      simp only [setDefault, hnn dflt hne, hv dflt hd, hget]
      exact ⟨trivial, fun _ => trivial⟩
  · have hne : dflt ≠ .none := fun h => by
      subst h
      rcases hc with ⟨r, h, _⟩ | ⟨_, h⟩ <;> cases h
    have hg : ∃ e, st.d.getItem lower a = .error e := by
      simp only [shows] at hab
      cases hg : st.d.getItem lower a with
      | error e => exact ⟨e, rfl⟩
      | ok v => rw [hg] at hab; cases v <;> cases hab
    obtain ⟨e, hg⟩ := hg
    obtain ⟨h1, h2, h3⟩ := c105_assign lower kind st hr (.text a) dflt
    have hok := h1.2 ⟨⟨a, rfl⟩, hc⟩
    simp only [setDefault, hnn dflt hne, hv dflt (attrs_of hc), hg, hok]
    exact ⟨rfl, h3 a rfl hok⟩
  · have he : validateValues st dflt = .error .typeError := by
      cases hvv : validateValues st dflt with
      | ok u => exact absurd (validate_conforms hvv) hc
      | error e =>
        cases dflt with
        | deleteAll => cases hvv
        | list r =>
          simp only [validateValues] at hvv
          split at hvv
          · cases hvv
          · cases hvv; rfl
        | _ => cases hvv; rfl
    simp only [setDefault, hnn dflt hd, he]
    exact ⟨trivial, fun _ => trivial⟩

theorem from_ok (e : CIDict Str PVal) : ∀ (ks : List Str) (st : St), (updateFrom lower kind e st ks).2 = .ok () → ∀ k ∈ ks, ∃ v, e.getItem lower k = .ok v := by
  intro ks
  induction ks with
  | nil => exact fun _ _ k hk => absurd hk List.not_mem_nil
  | cons k ks ih =>
    intro st h k' hk'
    simp only [updateFrom] at h
    cases he : e.getItem lower k with
    | error x => rw [he] at h; cases h
    | ok v =>
      rw [he] at h
      rcases List.mem_cons.1 hk' with rfl | hk'
      · exact ⟨v, he⟩
      · revert h
        simp only
        rcases setItem lower kind st (.text k) v with ⟨st', x | u⟩
        · intro h; cases h
        · exact fun h => ih st' h k' hk'

/-- **C105 (update with another attribute dictionary: nothing is passed over).** -/
theorem c105_update_stale (kind : Kind) (st : St) (e : CIDict Str PVal) (h : (update lower kind st (.attrs e)).2 = .ok ()) :
    ∀ k ∈ PDict.keys e.data, ∃ v, e.getItem lower k = .ok v := from_ok lower e _ st h

/-- **C105 (removal).** -/
theorem c105_remove (kind : Kind) (st : St) (hr : Reached lower kind st) :
    (∀ a, shows lower st a = none → step lower kind st (.del (.text a)) = (st, .error .keyError)) ∧
    (∀ a, shows lower st a ≠ none → (step lower kind st (.del (.text a))).2 = .ok .none ∧ ∀ x, shows lower (step lower kind st (.del (.text a))).1 x = if lower x = lower a then none else shows lower st x) ∧
    (∀ k, (∀ a, k ≠ .text a) → step lower kind st (.del k) = (st, .error .attributeError)) ∧ ∀ x, shows lower (step lower kind st .clear).1 x = none := by
  have hs := shape_of hr
  refine ⟨fun a ha => ?_, fun a ha => ?_, fun k hk => ?_, fun x => rfl⟩
  · rw [shows_eq _ hs] at ha
    have ha' : CIDict.abs st.d (lower a) = none := by
      revert ha
      cases CIDict.abs st.d (lower a) with
      | none => exact fun _ => rfl
      | some v => intro h; cases h
    simp only [step, CIDict.del_none lower st.d hs.inv a ha']
  · rw [shows_eq _ hs] at ha
    cases hv : CIDict.abs st.d (lower a) with
    | none => rw [hv] at ha; exact absurd rfl ha
    | some v =>
      obtain ⟨d', h1, h2, h3⟩ := CIDict.del_some lower st.d hs.inv a v hv
      have hs' := shape_closed.del st a d' h1 hs
      simp only [step, h1]
      refine ⟨trivial, fun x => ?_⟩
      rw [shows_eq _ hs', shows_eq _ hs, h3]
      simp only [Spec.FoldMap.drop]
      by_cases h : lower x = lower a
      · simp only [h, if_true, Option.map_none]
      · simp only [h, if_false]
        cases CIDict.abs st.d (lower x) with
        | none => rfl
        | some w => cases w with | list r => (cases r <;> rfl) | _ => rfl
  · cases k with
    | text a => exact absurd rfl (hk a)
    | _ => rfl

/-- **C105, finding.** What `setdefault` returns for an object is not the list it has stored: what the program puts into it is lost. -/
theorem c105_setdefault_lost (st : St) (hr : Reached lower .object st) (a : Str) (hab : shows lower st a = none) (vs : List PVal) (n : Nat) (dflt : PVal) (hd : dflt = .none ∨ dflt = .list (.mine n)) (r : Ref)
    (hok : (setDefault lower .object st (.text a) dflt).2 = .ok (.list r)) :
    ∀ x, shows lower ((setDefault lower .object st (.text a) dflt).1.change r vs) x = shows lower (setDefault lower .object st (.text a) dflt).1 x := by
  have hs := shape_of hr
  have hs' : Shape lower .object (setDefault lower .object st (.text a) dflt).1 := step_closed shape_closed st hs (.setdefault (.text a) dflt) (fun r vs h => by cases h)
  have hg : ∃ e, st.d.getItem lower a = .error e := by
    simp only [shows] at hab
    cases hg : st.d.getItem lower a with
    | error e => exact ⟨e, rfl⟩
    | ok v => rw [hg] at hab; cases v <;> cases hab
  obtain ⟨e, hg⟩ := hg
  intro x
  refine shows_change hs' r vs x (fun k v hm _ hv => ?_)
  subst hv
  rcases hd with rfl | rfl
  · revert hok hm
    have h2 : (St.mk st.mine (st.its ++ [[]] ++ [[]]) st.d).contents (.its (st.its ++ [[]]).length) = [] := contents_new { st with its := st.its ++ [[]] } [] st.d
    simp only [setDefault, orNew, validateValues, contents_new, List.all_nil, if_true, hg, setItem, attrsSet, h2]
    intro hok hm
    have hr' : r = .its st.its.length := by
      simp only [Except.map, Except.ok.injEq, PVal.list.injEq] at hok
      exact hok.symm
    subst hr'
    rcases mem_set hm with hm | hm
    · obtain ⟨m, h1, h2⟩ := hs.own rfl _ hm
      cases h1
      omega
    · simp only [Prod.mk.injEq, PVal.list.injEq, Ref.its.injEq, List.length_append, List.length_cons, List.length_nil] at hm
      omega
  · have hr' : r = .mine n := by
      revert hok
      simp only [setDefault, orNew, hg]
      cases validateValues st (.list (.mine n)) with
      | error e => intro h; cases h
      | ok u =>
        dsimp only
        cases (setItem lower .object st (.text a) (.list (.mine n))).2 with
        | error e => intro h; cases h
        | ok u => intro h; cases h; rfl
    subst hr'
    obtain ⟨m, h1, _⟩ := hs'.own rfl _ hm
    cases h1

/-- **C105 (copies).** An object makes its own lists: what happens to the caller's does not show. -/
theorem c105_copied (st : St) (hr : Reached lower .object st) (n : Nat) (vs : List PVal) (x : Str) : shows lower (st.change (.mine n) vs) x = shows lower st x :=
  shows_change (shape_of hr) _ vs x (fun k v hm _ hv => by
    obtain ⟨m, h1, _⟩ := (shape_of hr).own rfl _ hm
    subst hv
    cases h1)

/-- **C105 (separate lists).** A change of the list of one attribute of an object shows under that attribute, and no other. -/
theorem c105_separate (st : St) (hr : Reached lower .object st) (a : Str) (r : Ref) (h : st.d.getItem lower a = .ok (.list r)) (vs : List PVal) (x : Str) :
    shows lower (st.change r vs) x = if lower x = lower a then some (some vs) else shows lower st x := by
  have hs := shape_of hr
  have ha : CIDict.abs st.d (lower a) = some (.list r) := by
    rw [CIDict.getItem_eq lower st.d hs.inv] at h
    revert h
    cases CIDict.abs st.d (lower a) with
    | none => intro h; cases h
    | some v => intro h; cases h; rfl
  have hm : ∃ k, (k, .list r) ∈ st.d.data ∧ lower k = lower a := by
    simp only [CIDict.abs] at ha
    split at ha
    · cases ha
    · rename_i k hk
      exact ⟨k, PDict.mem_of_get? _ _ _ ha, (hs.inv.cas _ _ hk).1⟩
  obtain ⟨k, hk, hka⟩ := hm
  by_cases hx : lower x = lower a
  · rw [if_pos hx, shows_eq _ (shape_change st r vs hs), hx, show (st.change r vs).d = st.d by cases r <;> rfl, ha]
    obtain ⟨n, h1, h2⟩ := hs.own rfl _ hk
    cases h1
    simp only [Option.map_some, valueShows, St.change, St.contents, List.getD, List.getElem?_set_self h2, Option.getD_some]
  · rw [if_neg hx]
    refine shows_change hs r vs x (fun k' v' hm' hl hv => hx ?_)
    subst hv
    have := hs.apart rfl _ hm' _ hk rfl
    rw [Prod.mk.injEq] at this
    rw [← hl, this.1, hka]

/-- **C105, finding.** An `AttrsDict` keeps the caller's list itself: what the caller puts into it afterwards, of whatever type, is shown. -/
theorem c105_shared (st : St) (hr : Reached lower .attrs st) (a : Str) (n : Nat) (vs : List PVal) (hok : (setItem lower .attrs st (.text a) (.list (.mine n))).2 = .ok ()) :
    shows lower ((setItem lower .attrs st (.text a) (.list (.mine n))).1.change (.mine n) vs) a = some (some vs) := by
  revert hok
  simp only [setItem, attrsSet]
  cases validateValues st (.list (.mine n)) with
  | error e => intro h; cases h
  | ok u =>
    intro _
    have hs := shape_of hr
    have hs' : Shape lower .attrs { st with d := st.d.setItem lower a (.list (.mine n)) } := ⟨CIDict.inv_set lower _ _ _ hs.inv, nofun, nofun⟩
    rw [shows_eq _ (shape_change _ _ vs hs')]
    simp only [St.change, CIDict.abs_set lower _ _ _ hs.inv, Spec.FoldMap.put, if_true, Option.map_some, valueShows, St.contents]

end

namespace TyP
open Typed Spec.TypedS
/-- the caller's lists: `[b'\xff']`, `['x', 5]`, and empty ones -/
def exMine : Nat → List PVal
  | 0 => [.octets [255]]
  | 1 => [.text (str "x"), .other 5]
  | _ => []

def exLower (s : Str) : Str := s.map Char.toLower

def exSt (kind : Kind) : St := run exLower kind (St.init exMine) [.set (.text (str "CN")) (.list (.mine 0)), .set (.text (str "sn")) (.list (.mine 1)), .set (.octets [1]) (.list (.mine 0))]

theorem ex_reached (kind : Kind) : Reached exLower kind (exSt kind) := ⟨exMine, _, rfl⟩

/-- the history is fair, although the caller changes its list into one with a number -/
example : Fair .object [.set (.text (str "CN")) (.list (.mine 0)), .change (.mine 0) [.other 5], .change (.its 0) [.text (str "y")]] := by
  intro r vs hm hr x hx
  simp only [List.mem_cons, reduceCtorEq, Call.change.injEq, false_or, List.not_mem_nil, or_false] at hm
  rcases hm with ⟨rfl, rfl⟩ | ⟨rfl, rfl⟩
  · obtain ⟨n, h⟩ := hr rfl
    cases h
  · cases List.mem_singleton.1 hx
    exact .inl ⟨_, rfl⟩

/-- accepted, refused for the number, refused for the name -/
example : shows exLower (exSt .object) (str "cn") = some (some [.octets [255]]) ∧ shows exLower (exSt .object) (str "sn") = none ∧ (exSt .object).d.items = [(str "CN", .list (.its 0))] ∧
    (exSt .attrs).d.items = [(str "CN", .list (.mine 0))] := by decide +kernel

/-- `DELETE_ALL` -/
example : (setItem exLower .attrs (exSt .attrs) (.text (str "sn")) .deleteAll).2 = .ok () ∧ (setItem exLower .object (exSt .object) (.text (str "sn")) .deleteAll).2 = .error .typeError := by decide +kernel

/-- cut short: `sn` has been taken over, and the call raises -/
example : (update exLower .object (exSt .object) (.dict [(.text (str "sn"), .list (.mine 0)), (.text (str "cn"), .deleteAll)])).2 = .error .typeError ∧
    shows exLower (update exLower .object (exSt .object) (.dict [(.text (str "sn"), .list (.mine 0)), (.text (str "cn"), .deleteAll)])).1 (str "SN") = some (some [.octets [255]]) := by decide +kernel

/-- `obj.setdefault('sn', []).append('y')`: nothing is there -/
example : (setDefault exLower .object (exSt .object) (.text (str "sn")) (.list (.mine 2))).2 = .ok (.list (.mine 2)) ∧
    shows exLower ((setDefault exLower .object (exSt .object) (.text (str "sn")) (.list (.mine 2))).1.change (.mine 2) [.text (str "y")]) (str "sn") = some (some []) ∧
    shows exLower ((setDefault exLower .attrs (exSt .attrs) (.text (str "sn")) (.list (.mine 2))).1.change (.mine 2) [.text (str "y")]) (str "sn") = some (some [.text (str "y")]) := by decide +kernel

/-- the caller's list, changed: an `AttrsDict` shows the number, an object does not -/
example : shows exLower ((exSt .attrs).change (.mine 0) [.other 5]) (str "cn") = some (some [.other 5]) ∧ shows exLower ((exSt .object).change (.mine 0) [.other 5]) (str "cn") = some (some [.octets [255]]) := by decide +kernel

/-- an update with another dictionary meets the hypotheses -/
example : (update exLower .object (exSt .object) (.attrs (exSt .attrs).d)).2 = .ok () :=
  (c105_update_attrs exLower .object (exSt .object) (ex_reached _) (exSt .attrs).d (shape_of (ex_reached .attrs)).inv (fun k hk => by
    have : k = str "CN" := by
      have hk' : k ∈ [str "CN"] := hk
      simpa using hk'
    subst this
    exact ⟨.list (.mine 0), by decide +kernel⟩) (fun k v hv => by
    obtain ⟨k', hm⟩ := mem_of_getItem hv
    have hm' : (k', v) ∈ [(str "CN", PVal.list (.mine 0))] := hm
    simp only [List.mem_singleton, Prod.mk.injEq] at hm'
    obtain ⟨_, rfl⟩ := hm'
    exact ⟨.inl ⟨_, rfl, fun x hx => by cases List.mem_singleton.1 (show x ∈ [PVal.octets [255]] from hx); exact .inr ⟨_, rfl⟩⟩, nofun⟩)).1
end TyP
end Laurelin.Props
