import Verif.Model.LdapModify
/-! Properties C08 (modify requests) and C09 (validation before sending). -/
set_option linter.unusedSectionVars false
namespace Laurelin.Props
open Laurelin
variable {V : Type} [DecidableEq V]

/-- how one Mod appears in the request (documented behaviour of the empty-list options) -/
def wireChange (o : EmptyOpts) (md : Mod V) : Option (Change V) :=
  match md.vals with
  | .deleteAll => some ⟨md.op, md.attr, []⟩
  | .list [] => if o.ignore then none else some ⟨md.op, md.attr, []⟩
  | .list l => some ⟨md.op, md.attr, l⟩

theorem buildChanges_ok (o : EmptyOpts) (mods : List (Mod V))
    (hc : ∀ md ∈ mods, md.op = .add → md.vals.len ≠ 0)
    (he : ¬ (o.error = true ∧ ∃ md ∈ mods, md.vals = .list [])) :
    (buildChanges o mods).2 = .ok (mods.filterMap (wireChange o)) ∧
    (buildChanges o mods).1 = mods.map (fun md => match md.vals with
      | .deleteAll => { md with vals := .list [] } | _ => md) := by
  induction mods with
  | nil => simp [buildChanges]
  | cons md rest ih =>
    have ih' := ih (fun x hx => hc x (by simp [hx])) (fun ⟨h1, x, hx, h2⟩ => he ⟨h1, x, by simp [hx], h2⟩)
    have hmd := hc md (by simp)
    have heh : ¬ (o.error = true ∧ md.vals = .list []) := fun ⟨h1, h2⟩ => he ⟨h1, md, by simp, h2⟩
    obtain ⟨op, attr, vals⟩ := md
    simp only at hmd heh
    cases op <;> cases vals with
      | deleteAll => simp_all [buildChanges, wireChange, Vals.len]
      | list l => cases l <;> (simp_all [buildChanges, wireChange, Vals.len]; try (cases ho : o.ignore <;> simp_all [wireChange]))

theorem buildChanges_err (o : EmptyOpts) (mods : List (Mod V))
    (hc : ∀ md ∈ mods, md.op = .add → md.vals.len ≠ 0)
    (he : o.error = true ∧ ∃ md ∈ mods, md.vals = .list []) :
    (buildChanges o mods).2 = .error .ldapError := by
  induction mods with
  | nil => simp at he
  | cons md rest ih =>
    have hmd := hc md (by simp)
    have hcr : ∀ md ∈ rest, md.op = .add → md.vals.len ≠ 0 := fun x hx => hc x (by simp [hx])
    obtain ⟨h1, x, hx, hx0⟩ := he
    obtain ⟨op, attr, vals⟩ := md
    simp only at hmd
    have ih' : (∃ md ∈ rest, md.vals = .list []) → (buildChanges o rest).2 = .error .ldapError :=
      fun h => ih hcr ⟨h1, h⟩
    have hx' : vals = .list [] ∨ ∃ md ∈ rest, md.vals = .list [] := by
      rcases List.mem_cons.1 hx with rfl | hx
      · exact Or.inl hx0
      · exact Or.inr ⟨x, hx, hx0⟩
    rcases hx' with rfl | hx'
    · cases op <;> simp_all [buildChanges, Vals.len]
    · have := ih' hx'
      cases op <;> cases vals with
      | deleteAll => simp_all [buildChanges, Vals.len]
      | list l => cases l <;> simp_all [buildChanges, Vals.len]

/-- **C08.** For Mods that can be constructed (C07), on an open connection whose validators accept and with valid
controls: with `error_empty_list`, an empty REPLACE/DELETE list makes the call raise `LDAPError` and send nothing;
otherwise the single request holds, in order, every Mod with `DELETE_ALL` as an empty list and empty lists dropped or
kept according to `ignore_empty_list`; if nothing is left nothing is sent and the call succeeds. -/
theorem c08_request (validators : List ((Str × List (Mod V) × Option (AttrsDict V)) → Except Err Unit))
    (o : EmptyOpts) (server : ModRequest V → Except Err Unit) (dn : Str) (mods : List (Mod V))
    (current : Option (AttrsDict V))
    (hc : ∀ md ∈ mods, md.op = .add → md.vals.len ≠ 0)
    (hval : runValidation validators (dn, mods, current) = .ok ()) :
    let r := ldapModify false validators o (.ok ()) server dn mods current
    let cs := mods.filterMap (wireChange o)
    ((o.error = true ∧ ∃ md ∈ mods, md.vals = .list []) → r.sent = [] ∧ r.result = .error .ldapError) ∧
    (¬ (o.error = true ∧ ∃ md ∈ mods, md.vals = .list []) →
      r.sent = (if cs = [] then [] else [⟨dn, cs⟩]) ∧
      r.result = (if cs = [] then .ok () else server ⟨dn, cs⟩)) := by
  constructor
  · intro he
    have h := buildChanges_err o mods hc he
    obtain ⟨_, x, hx, _⟩ := he
    have hl : mods.length > 0 := List.length_pos_of_mem hx
    simp [ldapModify, hl, hval, h]
  · intro he
    have h := (buildChanges_ok o mods hc he).1
    cases mods with
    | nil => simp [ldapModify]
    | cons a t =>
      simp only [ldapModify, List.length_cons, gt_iff_lt, Nat.zero_lt_succ, if_true, hval, h,
        Bool.false_eq_true, if_false]
      cases hcs : (a :: t).filterMap (wireChange o) <;> simp

/-- **C08 (at most once).** Whatever the inputs, at most one request is sent per call, it is for the given DN and has at
least one change, and a request is only sent on an open connection, after all validators accepted. -/
theorem c08_at_most_once (unbound : Bool)
    (validators : List ((Str × List (Mod V) × Option (AttrsDict V)) → Except Err Unit))
    (o : EmptyOpts) (ctrls : Except Err Unit) (server : ModRequest V → Except Err Unit) (dn : Str)
    (mods : List (Mod V)) (current : Option (AttrsDict V)) :
    let r := ldapModify unbound validators o ctrls server dn mods current
    r.sent = [] ∨ (∃ cs, r.sent = [⟨dn, cs⟩] ∧ cs ≠ [] ∧ r.result = server ⟨dn, cs⟩ ∧ unbound = false ∧
      runValidation validators (dn, mods, current) = .ok () ∧ ctrls = .ok ()) := by
  simp only [ldapModify]
  split
  · split
    · left; rfl
    · rename_i hu
      split
      · left; rfl
      · rename_i hv
        split
        · left; rfl
        · rename_i cs hcs
          split
          · rename_i hlen
            split
            · left; rfl
            · right
              refine ⟨cs, rfl, ?_, rfl, by simpa using hu, hv, rfl⟩
              intro e; subst e; simp at hlen
          · left; rfl
  · left; rfl

example : (ldapModify false [] ⟨false, true⟩ (.ok ()) (fun _ => .ok ()) (str "dc=x")
    [⟨.replace, str "cn", .list [1]⟩, ⟨.delete, str "sn", .list []⟩, ⟨.delete, str "uid", .deleteAll⟩, ⟨.add, str "l", .list [(2 : Nat)]⟩] none).sent
    = [⟨str "dc=x", [⟨.replace, str "cn", [1]⟩, ⟨.delete, str "uid", []⟩, ⟨.add, str "l", [2]⟩]⟩] := by decide

/-- A consequence of the in-place rewriting of `DELETE_ALL`: sending the *same* Mod objects a second time with the
default options (ignore_empty_list) sends nothing. -/
theorem c08_mods_not_reusable :
    let mods : List (Mod Nat) := [⟨.delete, str "uid", .deleteAll⟩]
    let r1 := ldapModify false [] ⟨false, true⟩ (.ok ()) (fun _ => .ok ()) (str "dc=x") mods none
    let r2 := ldapModify false [] ⟨false, true⟩ (.ok ()) (fun _ => .ok ()) (str "dc=x") r1.mods none
    r1.sent = [⟨str "dc=x", [⟨.delete, str "uid", []⟩]⟩] ∧ r2.sent = [] := by decide

/-! ### C09 -/

/-- **C09.** The validators run in order; the outcome is the first exception that is not an `AttributeError`, and success
when there is none. -/
theorem c09_first_rejection {A : Type} (vs : List (A → Except Err Unit)) (a : A) :
    (∀ e, runValidation vs a = .error e ↔
      ∃ pre v post, vs = pre ++ v :: post ∧ v a = .error e ∧ e ≠ .attributeError ∧
        ∀ w ∈ pre, w a = .ok () ∨ w a = .error .attributeError) ∧
    (runValidation vs a = .ok () ↔ ∀ v ∈ vs, v a = .ok () ∨ v a = .error .attributeError) := by
  induction vs with
  | nil => simp [runValidation]
  | cons v vs ih =>
    cases hv : v a with
    | ok u =>
      simp only [runValidation, hv]
      constructor
      · intro e
        rw [ih.1 e]
        constructor
        · rintro ⟨pre, w, post, rfl, h1, h2, h3⟩
          refine ⟨v :: pre, w, post, rfl, h1, h2, ?_⟩
          intro x hx
          rcases List.mem_cons.1 hx with rfl | hx
          · exact Or.inl hv
          · exact h3 x hx
        · rintro ⟨pre, w, post, h0, h1, h2, h3⟩
          cases pre with
          | nil =>
            simp only [List.nil_append, List.cons.injEq] at h0
            rw [← h0.1, hv] at h1; simp at h1
          | cons p ps =>
            simp only [List.cons_append, List.cons.injEq] at h0
            exact ⟨ps, w, post, h0.2, h1, h2, fun x hx => h3 x (by simp [hx])⟩
      · rw [ih.2]; simp [hv]
    | error e0 =>
      by_cases hatt : e0 = .attributeError
      · subst hatt
        simp only [runValidation, hv]
        constructor
        · intro e
          rw [ih.1 e]
          constructor
          · rintro ⟨pre, w, post, rfl, h1, h2, h3⟩
            refine ⟨v :: pre, w, post, rfl, h1, h2, ?_⟩
            intro x hx
            rcases List.mem_cons.1 hx with rfl | hx
            · exact Or.inr hv
            · exact h3 x hx
          · rintro ⟨pre, w, post, h0, h1, h2, h3⟩
            cases pre with
            | nil =>
              simp only [List.nil_append, List.cons.injEq] at h0
              rw [← h0.1, hv] at h1; simp only [Except.error.injEq] at h1; exact absurd h1.symm h2
            | cons p ps =>
              simp only [List.cons_append, List.cons.injEq] at h0
              exact ⟨ps, w, post, h0.2, h1, h2, fun x hx => h3 x (by simp [hx])⟩
        · rw [ih.2]; simp [hv]
      · have hr : runValidation (v :: vs) a = .error e0 := by
          simp only [runValidation, hv]
        rw [hr]
        constructor
        · intro e
          simp only [Except.error.injEq]
          constructor
          · rintro rfl
            exact ⟨[], v, vs, rfl, hv, hatt, by simp⟩
          · rintro ⟨pre, w, post, h0, h1, h2, h3⟩
            cases pre with
            | nil =>
              simp only [List.nil_append, List.cons.injEq] at h0
              rw [← h0.1, hv] at h1; simpa using h1
            | cons p ps =>
              simp only [List.cons_append, List.cons.injEq] at h0
              have := h3 p (by simp)
              rw [← h0.1, hv] at this
              simp [hatt] at this
        · simp only [reduceCtorEq, false_iff]
          intro h
          have := h v (by simp)
          rw [hv] at this; simp [hatt] at this

/-- **C09.** If some validator rejects a modify (raises anything but `AttributeError`), nothing is sent, the object and the
Mods are unchanged, and the call raises the first rejection; if every validator accepts, the validators have no
influence on the call. -/
theorem c09_modify_gate (lower : Str → Str) (typeOf : TypeOf V)
    (validators : List ((Str × List (Mod V) × Option (AttrsDict V)) → Except Err Unit))
    (o : EmptyOpts) (ctrls : Except Err Unit) (server : ModRequest V → Except Err Unit) (dn : Str)
    (d : AttrsDict V) (mods : List (Mod V)) (hne : mods ≠ []) :
    (∀ e, runValidation validators (dn, mods, some d) = .error e →
      let r := objModify lower typeOf false validators o ctrls server dn d mods
      r.2.sent = [] ∧ r.1 = d ∧ r.2.mods = mods ∧ r.2.result = .error e) ∧
    (runValidation validators (dn, mods, some d) = .ok () →
      objModify lower typeOf false validators o ctrls server dn d mods =
      objModify lower typeOf false [] o ctrls server dn d mods) := by
  have hl : mods.length > 0 := List.length_pos_iff.2 hne
  constructor
  · intro e he
    simp [objModify, ldapModify, hl, he]
  · intro hok
    simp [objModify, ldapModify, hl, hok, runValidation]

example :
    let r := objModify (List.map Char.toLower) (fun _ => .ok .default) false
      [fun _ => .ok (), fun x => if x.2.1.length > 1 then .error .ldapValidation else .ok (), fun _ => .error .invalidSyntax]
      ⟨false, true⟩ (.ok ()) (fun _ => .ok ()) (str "dc=x")
      (CIDict.run (List.map Char.toLower) CIDict.empty [.set (str "cn") [(1 : Nat)]]).1
      [⟨.replace, str "cn", .list [1]⟩, ⟨.delete, str "sn", .list []⟩]
    r.2.sent = [] ∧ r.2.result = .error .ldapValidation := by decide

end Laurelin.Props
