import Verif.Model.Refresh
import Verif.Spec.Refresh
import Verif.Props.Mirror
/-!
Property C85: what reading the entry again does to an object, whoever else writes to the entry in the meantime.
-/
set_option linter.unusedSectionVars false
namespace Laurelin.Props
open Laurelin Spec
variable {V : Type} [DecidableEq V]

namespace RefreshP
variable (lower : Str → Str)

/-- the connection reads the entry `e`: if the search yields something, it is what RFC 4511 says -/
def Serves (N : Naming lower) (g : Refresh.Getter V) (e : Entry V) : Prop :=
  ∀ sel got, g.answer sel = .ok got → Returns N e sel got

/-- the selection meant by the argument of `refresh` -/
def meantSel : Option (List Str) → List Str
  | none => [str "*"]
  | some l => l

theorem fetch_cases (g : Refresh.Getter V) (attrs : Option (List Str)) :
    (∃ e, g.fetch attrs = ([], .error e)) ∨ g.fetch attrs = ([meantSel attrs], g.answer (meantSel attrs)) := by
  have hsel : (match attrs with | none => [str "*"] | some l => l) = meantSel attrs := by cases attrs <;> rfl
  simp only [Refresh.Getter.fetch, hsel]
  split
  · exact Or.inl ⟨_, rfl⟩
  · split
    · exact Or.inl ⟨_, rfl⟩
    · exact Or.inr rfl

theorem missing_eq (d : AttrsDict V) (attrs : List Str) :
    Refresh.missing lower d attrs = attrs.filter (fun a => decide (AttrsDict.getAttr lower d a = [])) := by
  induction attrs with
  | nil => rfl
  | cons a as ih =>
    by_cases h : AttrsDict.getAttr lower d a = []
    · have := (AttrsDict.has_false_iff lower d a).2 h
      simp [Refresh.missing, this, h, ih]
    · have := (AttrsDict.has_iff lower d a).2 h
      simp [Refresh.missing, this, h, ih]

theorem update_get (N : Naming lower) (e : Entry V) (sel : List Str) (got : PDict Str (List V)) (d : AttrsDict V)
    (hi : CIDict.Inv lower d) (hr : Returns N e sel got) :
    CIDict.Inv lower (CIDict.update lower d got) ∧
    (∀ a, Selected N sel (lower a) → e (lower a) ≠ [] →
      AttrsDict.getAttr lower (CIDict.update lower d got) a = e (lower a)) ∧
    (∀ a, ¬ (Selected N sel (lower a) ∧ e (lower a) ≠ []) →
      AttrsDict.getAttr lower (CIDict.update lower d got) a = AttrsDict.getAttr lower d a) := by
  have hu := update_abs lower got d hi e (fun kv hkv => (hr.sound kv hkv).1)
  refine ⟨hu.1, fun a hs he => ?_, fun a hn => ?_⟩
  · rw [getAttr_abs lower _ hu.1, (hu.2 _).1 (hr.complete _ he hs)]; rfl
  · rw [getAttr_abs lower _ hu.1, getAttr_abs lower _ hi]
    rw [(hu.2 _).2]
    rintro ⟨kv, hkv, hx⟩
    obtain ⟨h1, h2, h3⟩ := hr.sound kv hkv
    rw [hx] at h1 h3
    exact hn ⟨h3, by rw [← h1]; exact h2⟩

/-- the functions used in the models of `add_attrs` and `delete_attrs` (C05, C06, C10, C12) are these, without the record of
queries -/
theorem same (g : Refresh.Getter V) (d : AttrsDict V) (attrs : List Str) :
    refreshMissing lower (fun l => (g.fetch (some l)).2) d attrs =
      match (Refresh.refreshMissing lower (some g) d attrs).result with
      | .ok _ => .ok (Refresh.refreshMissing lower (some g) d attrs).obj
      | .error e => .error e := by
  have hm : attrs.filter (fun a => !AttrsDict.has lower d a) = Refresh.missing lower d attrs := by
    induction attrs with
    | nil => rfl
    | cons a as ih =>
      cases h : AttrsDict.has lower d a <;> simp [Refresh.missing, h, ih]
  simp only [Laurelin.refreshMissing, Refresh.refreshMissing, hm]
  split
  · simp only [Laurelin.refresh, Refresh.refresh]
    cases (g.fetch (some (Refresh.missing lower d attrs))).2 <;> rfl
  · rfl

end RefreshP
open RefreshP

section
variable (lower : Str → Str) (N : Naming lower)

/-- **C85 (refresh).** A `refresh` that succeeds has asked the server once, for exactly the attributes named (all user
attributes if none are named); afterwards every selected attribute the server has shows the server's values, and every
other attribute shows what it showed before. A `refresh` that fails changes nothing. -/
theorem c85_refresh (g : Refresh.Getter V) (e : Entry V) (hg : Serves lower N g e) (d : AttrsDict V)
    (hi : CIDict.Inv lower d) (attrs : Option (List Str)) :
    let r := Refresh.refresh lower (some g) d attrs
    (r.result = .ok () → r.asked = [meantSel attrs] ∧ CIDict.Inv lower r.obj ∧
      (∀ a, Selected N (meantSel attrs) (lower a) → e (lower a) ≠ [] → AttrsDict.getAttr lower r.obj a = e (lower a)) ∧
      (∀ a, ¬ (Selected N (meantSel attrs) (lower a) ∧ e (lower a) ≠ []) →
        AttrsDict.getAttr lower r.obj a = AttrsDict.getAttr lower d a)) ∧
    (r.result ≠ .ok () → r.obj = d) := by
  intro r
  rcases fetch_cases g attrs with ⟨e, h⟩ | h
  · simp [r, Refresh.refresh, h]
  · simp only [r, Refresh.refresh, h]
    split
    · exact ⟨nofun, fun _ => rfl⟩
    · rename_i got hgot
      obtain ⟨h1, h2, h3⟩ := update_get lower N e _ got d hi (hg _ _ hgot)
      exact ⟨fun _ => ⟨rfl, h1, h2, h3⟩, fun h => absurd rfl h⟩

/-- an object without a connection raises `RuntimeError`, unless nothing is missing -/
theorem c85_not_connected (d : AttrsDict V) (attrs : Option (List Str)) (names : List Str) :
    (Refresh.refresh lower none d attrs) = ⟨[], d, .error .runtimeError⟩ ∧
    (Refresh.refreshAll lower none d) = ⟨[], d, .error .runtimeError⟩ ∧
    (Refresh.refreshMissing lower none d names) =
      ⟨[], d, if ∀ a ∈ names, AttrsDict.getAttr lower d a ≠ [] then .ok () else .error .runtimeError⟩ := by
  refine ⟨rfl, rfl, ?_⟩
  simp only [Refresh.refreshMissing, missing_eq]
  by_cases h : ∀ a ∈ names, AttrsDict.getAttr lower d a ≠ []
  · have : names.filter (fun a => decide (AttrsDict.getAttr lower d a = [])) = [] :=
      List.filter_eq_nil_iff.2 (fun a ha => by simpa using h a ha)
    rw [this, if_pos h]; rfl
  · rw [if_neg h, if_pos]
    · rfl
    · apply Nat.pos_of_ne_zero
      intro h0
      apply h
      intro a ha hc
      have := List.filter_eq_nil_iff.1 (List.length_eq_zero_iff.1 h0) a ha
      simp [hc] at this

/-- **C85 (refresh_all).** After a successful `refresh_all`, every attribute the server has – user or operational – shows the
server's values. -/
theorem c85_refresh_all (g : Refresh.Getter V) (e : Entry V) (hg : Serves lower N g e) (d : AttrsDict V)
    (hi : CIDict.Inv lower d) (hok : (Refresh.refreshAll lower (some g) d).result = .ok ()) :
    ∀ a, e (lower a) ≠ [] → AttrsDict.getAttr lower (Refresh.refreshAll lower (some g) d).obj a = e (lower a) := by
  intro a ha
  have h := ((c85_refresh lower N g e hg d hi (some [str "*", str "+"])).1 hok).2.2.1
  refine h a ?_ ha
  by_cases ho : N.operational (lower a)
  · exact Or.inr (Or.inl ⟨ho, by simp [meantSel]⟩)
  · exact Or.inl ⟨ho, Or.inr (by simp [meantSel])⟩

/-- **C85 (refresh_missing).** `refresh_missing` asks the server for exactly the listed attributes that have no value in the
object, in the order listed, in one query – or makes no query when there are none; if it succeeds, every listed attribute
that was missing now shows what the server has (nothing if it has nothing). Attributes that had values keep them, unless
the server counts them as covered by a missing one (subtypes, options). -/
theorem c85_missing (g : Refresh.Getter V) (e : Entry V) (hg : Serves lower N g e) (d : AttrsDict V)
    (hi : CIDict.Inv lower d) (attrs : List Str)
    (hstar : str "*" ∉ attrs ∧ str "+" ∉ attrs) :
    let r := Refresh.refreshMissing lower (some g) d attrs
    let want := attrs.filter (fun a => decide (AttrsDict.getAttr lower d a = []))
    (r.asked = [] ∨ r.asked = [want]) ∧ (want = [] → r = ⟨[], d, .ok ()⟩) ∧
    (want ≠ [] → r.result = .ok () → r.asked = [want]) ∧
    (r.result = .ok () → CIDict.Inv lower r.obj ∧
      (∀ a ∈ attrs, AttrsDict.getAttr lower d a = [] → AttrsDict.getAttr lower r.obj a = e (lower a)) ∧
      (∀ a, (∀ s ∈ want, ¬ N.covers s (lower a)) → AttrsDict.getAttr lower r.obj a = AttrsDict.getAttr lower d a)) ∧
    (r.result ≠ .ok () → r.obj = d) := by
  intro r want
  have hw : Refresh.missing lower d attrs = want := missing_eq lower d attrs
  by_cases h0 : want = []
  · have hr : r = ⟨[], d, .ok ()⟩ := by
      simp only [r, Refresh.refreshMissing, hw, h0]; rfl
    refine ⟨Or.inl (by rw [hr]), fun _ => hr, fun h => absurd h0 h, fun _ => ?_, fun h => by rw [hr] at h; exact absurd rfl h⟩
    rw [hr]
    refine ⟨hi, fun a ha hn => ?_, fun _ _ => rfl⟩
    have : a ∈ want := List.mem_filter.2 ⟨ha, by simp [hn]⟩
    rw [h0] at this; simp at this
  · have hlen : want.length > 0 := Nat.pos_of_ne_zero (fun h => h0 (List.length_eq_zero_iff.1 h))
    have hr : r = Refresh.refresh lower (some g) d (some want) := by
      simp only [r, Refresh.refreshMissing, hw, hlen, if_true]
    have h := c85_refresh lower N g e hg d hi (some want)
    rw [← hr] at h
    have hns : str "*" ∉ want ∧ str "+" ∉ want :=
      ⟨fun h => hstar.1 (List.mem_filter.1 h).1, fun h => hstar.2 (List.mem_filter.1 h).1⟩
    refine ⟨?_, fun h => absurd h h0, fun _ hok => (h.1 hok).1, fun hok => ?_, h.2⟩
    · rw [hr]
      rcases fetch_cases g (some want) with ⟨e, h⟩ | h
      · simp [Refresh.refresh, h]
      · simp only [Refresh.refresh, h]
        exact Or.inr (by split <;> rfl)
    · obtain ⟨_, h2, h3, h4⟩ := h.1 hok
      refine ⟨h2, fun a ha hn => ?_, fun a hc => ?_⟩
      · have hm : a ∈ want := List.mem_filter.2 ⟨ha, by simp [hn]⟩
        have hs : Selected N (meantSel (some want)) (lower a) := Or.inr (Or.inr ⟨a, hm, N.itself a⟩)
        by_cases he : e (lower a) = []
        · rw [h4 a (fun hx => hx.2 he), hn, he]
        · exact h3 a hs he
      · apply h4
        rintro ⟨hs, _⟩
        rcases hs with ⟨_, h | h⟩ | ⟨_, h⟩ | ⟨s, hs, hx⟩
        · exact h0 h
        · exact hns.1 h
        · exact hns.2 h
        · exact hc s hs hx

theorem getItem_of_ne (d : AttrsDict V) (a : Str) (h : AttrsDict.getAttr lower d a ≠ []) :
    CIDict.getItem lower d a = .ok (AttrsDict.getAttr lower d a) := by
  cases hg : CIDict.getItem lower d a with
  | ok l => simp [AttrsDict.getAttr, CIDict.get, hg]
  | error e => simp [AttrsDict.getAttr, CIDict.get, hg] at h

/-- **C85 (has_object_class).** If the object knows no object class it asks the server for `objectClass` alone; the answer is then
whether the server's entry has a matching value, decided by the schema – or `KeyError` if the server shows none. If the object
knows object classes, nothing is asked, and the answer is about those. -/
theorem c85_object_class {m : Str → V → V → Bool} {G : Str → V → Prop} (typeOf : TypeOf V) (hD : Decides typeOf m G)
    (g : Refresh.Getter V) (e : Entry V) (hg : Serves lower N g e) (d : AttrsDict V)
    (hi : CIDict.Inv lower d) (oc : V) (hoc : G (str "objectClass") oc)
    (hgood : ∀ x ∈ e (lower (str "objectClass")), G (str "objectClass") x)
    (hgood' : ∀ x ∈ AttrsDict.getAttr lower d (str "objectClass"), G (str "objectClass") x) :
    let r := Refresh.hasObjectClass lower typeOf (some g) d oc
    let known := AttrsDict.getAttr lower d (str "objectClass")
    let has := e (lower (str "objectClass"))
    (known ≠ [] → r = ⟨[], d, .ok (known.any (fun x => m (str "objectClass") x oc))⟩) ∧
    (known = [] → (Refresh.refresh lower (some g) d (some [str "objectClass"])).result = .ok () →
      r.asked = [[str "objectClass"]] ∧
      (has ≠ [] → r.result = .ok (has.any (fun x => m (str "objectClass") x oc))) ∧
      (has = [] → CIDict.abs d (lower (str "objectClass")) = none → r.result = .error .keyError)) := by
  intro r known has
  constructor
  · intro hk
    have h1 : Refresh.refreshMissing lower (some g) d [str "objectClass"] = ⟨[], d, .ok ()⟩ := by
      have := (AttrsDict.has_iff lower d (str "objectClass")).2 hk
      simp [Refresh.refreshMissing, Refresh.missing, this]
    simp only [r, Refresh.hasObjectClass, h1, getItem_of_ne lower d _ hk,
      (c04_value_list typeOf m G hD _ _ _ hgood' hoc).1]
    rfl
  · intro hk hok
    have h1 : Refresh.refreshMissing lower (some g) d [str "objectClass"] =
        Refresh.refresh lower (some g) d (some [str "objectClass"]) := by
      have := (AttrsDict.has_false_iff lower d (str "objectClass")).2 hk
      simp [Refresh.refreshMissing, Refresh.missing, this]
    obtain ⟨h2, h3, h4, h5⟩ := (c85_refresh lower N g e hg d hi (some [str "objectClass"])).1 hok
    have hs : Selected N (meantSel (some [str "objectClass"])) (lower (str "objectClass")) :=
      Or.inr (Or.inr ⟨_, by simp [meantSel], N.itself _⟩)
    simp only [r, Refresh.hasObjectClass, h1, hok]
    refine ⟨?_, fun hh => ?_, fun hh habs => ?_⟩
    · split <;> exact h2
    · have h6 := h4 _ hs hh
      rw [getItem_of_ne lower _ _ (by rw [h6]; exact hh), h6]
      exact (c04_value_list typeOf m G hD _ _ _ hgood hoc).1
    · have hu : CIDict.abs (Refresh.refresh lower (some g) d (some [str "objectClass"])).obj (lower (str "objectClass")) = none := by
        rcases fetch_cases g (some [str "objectClass"]) with ⟨e, h⟩ | h
        · simp only [Refresh.refresh, h] at hok
          cases hok
        · simp only [Refresh.refresh, h] at hok ⊢
          split at hok
          · cases hok
          · rename_i got hgot
            simp only [hgot]
            have hr := hg _ _ hgot
            have hu := update_abs lower got d hi e (fun kv hkv => (hr.sound kv hkv).1)
            rw [(hu.2 _).2, habs]
            rintro ⟨kv, hkv, hx⟩
            obtain ⟨a1, a2, _⟩ := hr.sound kv hkv
            rw [hx] at a1
            exact a2 (a1.trans hh)
      rw [CIDict.getItem_eq lower _ h3, hu]

/-! ### histories with other writers -/

/-- what may happen to an entry and an object reading it: somebody else changes the entry (to anything), or the object is
asked to read -/
inductive Event (V : Type) where
  | others (e : Entry V)
  | refresh (attrs : Option (List Str))
  | all
  | missing (attrs : List Str)
  | hasClass (oc : V)

/-- one event; the connection that reads an entry may differ from event to event (failing searches, for example) -/
def RefreshP.step (typeOf : TypeOf V) (conn : Entry V → Refresh.Getter V) (s : Session V) : Event V → Session V
  | .others e => ⟨s.obj, e⟩
  | .refresh attrs => ⟨(Refresh.refresh lower (some (conn s.entry)) s.obj attrs).obj, s.entry⟩
  | .all => ⟨(Refresh.refreshAll lower (some (conn s.entry)) s.obj).obj, s.entry⟩
  | .missing attrs => ⟨(Refresh.refreshMissing lower (some (conn s.entry)) s.obj attrs).obj, s.entry⟩
  | .hasClass oc => ⟨(Refresh.hasObjectClass lower typeOf (some (conn s.entry)) s.obj oc).obj, s.entry⟩

/-- the state after a history -/
def RefreshP.after (typeOf : TypeOf V) (s : Session V) : List ((Entry V → Refresh.Getter V) × Event V) → Session V
  | [] => s
  | (conn, ev) :: rest => RefreshP.after typeOf (RefreshP.step lower typeOf conn s ev) rest

theorem refresh_either (g : Refresh.Getter V) (e : Entry V) (hg : Serves lower N g e) (d : AttrsDict V)
    (hi : CIDict.Inv lower d) (attrs : Option (List Str)) (a : Str) :
    let d' := (Refresh.refresh lower (some g) d attrs).obj
    CIDict.Inv lower d' ∧ (AttrsDict.getAttr lower d' a = AttrsDict.getAttr lower d a ∨
      AttrsDict.getAttr lower d' a = e (lower a)) := by
  intro d'
  have h := c85_refresh lower N g e hg d hi attrs
  by_cases hok : (Refresh.refresh lower (some g) d attrs).result = .ok ()
  · obtain ⟨_, h2, h3, h4⟩ := h.1 hok
    refine ⟨h2, ?_⟩
    by_cases hx : Selected N (meantSel attrs) (lower a) ∧ e (lower a) ≠ []
    · exact Or.inr (h3 a hx.1 hx.2)
    · exact Or.inl (h4 a hx)
  · have := h.2 hok
    show CIDict.Inv lower (Refresh.refresh lower (some g) d attrs).obj ∧ _
    rw [this]
    exact ⟨hi, Or.inl (by show AttrsDict.getAttr lower (Refresh.refresh lower (some g) d attrs).obj a = _; rw [this])⟩

theorem missing_either (g : Refresh.Getter V) (e : Entry V) (hg : Serves lower N g e) (d : AttrsDict V)
    (hi : CIDict.Inv lower d) (attrs : List Str) (a : Str) :
    let d' := (Refresh.refreshMissing lower (some g) d attrs).obj
    CIDict.Inv lower d' ∧ (AttrsDict.getAttr lower d' a = AttrsDict.getAttr lower d a ∨
      AttrsDict.getAttr lower d' a = e (lower a)) := by
  simp only [Refresh.refreshMissing]
  split
  · exact refresh_either lower N g e hg d hi _ a
  · exact ⟨hi, Or.inl rfl⟩

theorem step_either (typeOf : TypeOf V) (conn : Entry V → Refresh.Getter V) (hc : ∀ e, Serves lower N (conn e) e)
    (s : Session V) (hi : CIDict.Inv lower s.obj) (ev : Event V) (a : Str) :
    let s' := RefreshP.step lower typeOf conn s ev
    CIDict.Inv lower s'.obj ∧ (AttrsDict.getAttr lower s'.obj a = AttrsDict.getAttr lower s.obj a ∨
      AttrsDict.getAttr lower s'.obj a = s.entry (lower a)) := by
  cases ev with
  | others e => exact ⟨hi, Or.inl rfl⟩
  | refresh attrs => exact refresh_either lower N _ _ (hc _) _ hi _ a
  | all => exact refresh_either lower N _ _ (hc _) _ hi _ a
  | missing attrs => exact missing_either lower N _ _ (hc _) _ hi _ a
  | hasClass oc =>
    have h := missing_either lower N _ _ (hc s.entry) _ hi [str "objectClass"] a
    have ho : (RefreshP.step lower typeOf conn s (.hasClass oc)).obj =
        (Refresh.refreshMissing lower (some (conn s.entry)) s.obj [str "objectClass"]).obj := by
      simp only [RefreshP.step, Refresh.hasObjectClass]
      split
      · rfl
      · split <;> rfl
    intro s'
    rw [show s'.obj = _ from ho]
    exact h

/-- **C85 (never invented).** However often an object is refreshed and whatever others do to the entry in between: the values
an attribute shows are all the values the server had for it at some moment of the history (a moment at which the object was
read), or those it showed at the start. -/
theorem c85_never_invented (typeOf : TypeOf V) (s : Session V) (hi : CIDict.Inv lower s.obj)
    (hist : List ((Entry V → Refresh.Getter V) × Event V)) (hc : ∀ h ∈ hist, ∀ e, Serves lower N (h.1 e) e) (a : Str) :
    AttrsDict.getAttr lower (RefreshP.after lower typeOf s hist).obj a = AttrsDict.getAttr lower s.obj a ∨
    ∃ before h later, hist = before ++ h :: later ∧ (∀ e, h.2 ≠ .others e) ∧
      AttrsDict.getAttr lower (RefreshP.after lower typeOf s hist).obj a =
        (RefreshP.after lower typeOf s before).entry (lower a) := by
  induction hist generalizing s with
  | nil => exact Or.inl rfl
  | cons h rest ih =>
    obtain ⟨conn, ev⟩ := h
    have hs := step_either lower N typeOf conn (hc (conn, ev) (by simp)) s hi ev a
    rcases ih (RefreshP.step lower typeOf conn s ev) hs.1 (fun x hx => hc x (by simp [hx])) with hx | ⟨b, h', l, h1, h2, h3⟩
    · simp only [RefreshP.after]
      rcases hs.2 with h4 | h4
      · exact Or.inl (hx.trans h4)
      · by_cases hev : ∃ e, ev = .others e
        · obtain ⟨e, rfl⟩ := hev
          exact Or.inl hx
        · exact Or.inr ⟨[], (conn, ev), rest, rfl, fun e he => hev ⟨e, he⟩, hx.trans h4⟩
    · exact Or.inr ⟨(conn, ev) :: b, h', l, by simp [h1], h2, h3⟩

end

/-! #### instances and counterexamples -/
namespace RefreshP

/-- no operational attributes but `modifyTimestamp`; names cover themselves -/
def naming : Naming lc := ⟨fun x => x = str "modifytimestamp", fun s x => lc s = x, fun _ => rfl⟩

/-- an entry as a list of attributes in the server's spelling -/
def entryOf (l : List (Str × List Nat)) : Entry Nat := fun x =>
  match l.find? (fun kv => lc kv.1 = x) with
  | some kv => kv.2
  | none => []

def selects (sel : List Str) (x : Str) : Bool :=
  (x != str "modifytimestamp" && (sel.isEmpty || sel.contains (str "*"))) ||
  (x == str "modifytimestamp" && sel.contains (str "+")) || sel.any (fun s => lc s == x)

/-- a server holding that entry -/
def server (l : List (Str × List Nat)) : Refresh.Getter Nat :=
  ⟨false, fun _ => none, fun sel => .ok (l.filter (fun kv => selects sel (lc kv.1)))⟩

theorem selects_iff (sel : List Str) (x : Str) : selects sel x = true ↔ Selected naming sel x := by
  simp only [selects, Selected, naming, Bool.or_eq_true, Bool.and_eq_true, bne_iff_ne, beq_iff_eq, List.isEmpty_iff,
    List.contains_iff_mem, List.any_eq_true, or_assoc, ne_eq]

theorem server_serves (l : List (Str × List Nat)) (hn : (l.map (fun kv => lc kv.1)).Nodup) (hv : ∀ kv ∈ l, kv.2 ≠ []) :
    Serves lc naming (server l) (entryOf l) := by
  have hfind : ∀ kv ∈ l, entryOf l (lc kv.1) = kv.2 := by
    intro kv hkv
    have : l.find? (fun x => lc x.1 = lc kv.1) = some kv := by
      clear hv
      induction l with
      | nil => simp at hkv
      | cons y ys ih =>
        simp only [List.map_cons, List.nodup_cons] at hn
        rcases List.mem_cons.1 hkv with rfl | hk
        · simp
        · rw [List.find?_cons_of_neg, ih hn.2 hk]
          intro hx
          have hx : lc y.1 = lc kv.1 := by simpa using hx
          exact hn.1 (List.mem_map.2 ⟨kv, hk, hx.symm⟩)
    simp only [entryOf, this]
  intro sel got h
  simp only [server, Except.ok.injEq] at h
  subst h
  constructor
  · intro kv hkv
    obtain ⟨h1, h2⟩ := List.mem_filter.1 hkv
    exact ⟨(hfind kv h1).symm, hv kv h1, (selects_iff _ _).1 h2⟩
  · intro x hx hs
    simp only [entryOf] at hx
    split at hx
    · rename_i kv hf
      have hk : lc kv.1 = x := by simpa using List.find?_some hf
      exact ⟨kv, List.mem_filter.2 ⟨List.mem_of_find?_eq_some hf, by rw [hk]; exact (selects_iff _ _).2 hs⟩, hk⟩
    · exact absurd rfl hx

def shown : List (Str × List Nat) := [(str "cn", [1]), (str "SN", [7, 8]), (str "modifyTimestamp", [100]), (str "objectClass", [3])]
def obj0 : AttrsDict Nat := CIDict.update lc CIDict.empty [(str "CN", [9]), (str "l", [5])]

/-- the hypotheses are met, and the calls do something -/
example : Serves lc naming (server shown) (entryOf shown) := server_serves shown (by decide) (by decide)

example :
    (Refresh.refresh lc (some (server shown)) obj0 none).asked = [[str "*"]] ∧
    AttrsDict.getAttr lc (Refresh.refresh lc (some (server shown)) obj0 none).obj (str "cN") = [1] ∧
    AttrsDict.getAttr lc (Refresh.refresh lc (some (server shown)) obj0 none).obj (str "modifytimestamp") = [] ∧
    AttrsDict.getAttr lc (Refresh.refreshAll lc (some (server shown)) obj0).obj (str "modifytimestamp") = [100] ∧
    (Refresh.refreshMissing lc (some (server shown)) obj0 [str "cn", str "sn", str "l", str "x"]).asked = [[str "sn", str "x"]] ∧
    (Refresh.refreshMissing lc (some (server shown)) obj0 [str "cn", str "L"]).asked = [] ∧
    AttrsDict.getAttr lc (Refresh.refreshMissing lc (some (server shown)) obj0 [str "cn", str "sn"]).obj (str "cn") = [9] ∧
    (Refresh.hasObjectClass lc (fun _ => .ok .default) (some (server shown)) obj0 3).result = .ok true ∧
    (Refresh.hasObjectClass lc (fun _ => .ok .default) (some (server [])) obj0 3).result = .error .keyError := by
  decide

end RefreshP

/-- The claim "after `refresh_all` the object shows what the server has" is false of the code: an attribute that the server no
longer has (somebody deleted it) is still shown, with its old values, however often the object is refreshed. -/
theorem c85_deleted_stays (l : List (Str × List Nat)) (hn : (l.map (fun kv => lc kv.1)).Nodup) (hv : ∀ kv ∈ l, kv.2 ≠ [])
    (d : AttrsDict Nat) (hi : CIDict.Inv lc d) (a : Str) (hgone : entryOf l (lc a) = []) :
    AttrsDict.getAttr lc (Refresh.refreshAll lc (some (server l)) d).obj a = AttrsDict.getAttr lc d a :=
  ((c85_refresh lc naming (server l) (entryOf l) (server_serves l hn hv) d hi (some [str "*", str "+"])).1 rfl).2.2.2 a
    (fun h => h.2 hgone)

/-- a concrete case: `l` is not on the server any more, and stays -/
example : entryOf shown (lc (str "l")) = [] ∧
    AttrsDict.getAttr lc (Refresh.refreshAll lc (some (server shown)) obj0).obj (str "l") = [5] := by decide

/-- A class that another client has added is not seen: the object answers from the classes it knows. -/
theorem c85_class_stale :
    let d := CIDict.update lc CIDict.empty [(str "objectClass", [3])]
    entryOf [(str "objectClass", [3, 4])] (lc (str "objectClass")) = [3, 4] ∧
    (Refresh.hasObjectClass lc (fun _ => .ok .default) (some (server [(str "objectClass", [3, 4])])) d 4).result = .ok false := by
  decide

end Laurelin.Props
