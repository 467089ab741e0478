import Verif.Spec.Controls
import Verif.Lemmas.PDict
/-!
# C30 request controls, C31 response controls, C61 control registration
-/
namespace Laurelin.Props
open Laurelin Laurelin.Controls Laurelin.Spec
variable {V R : Type}

namespace Ctl

theorem attached_functional {reg : PDict Str (Cls V R)} {m sup dflt kv w w'} (h : Attached reg m sup dflt kv w)
    (h' : Attached reg m sup dflt kv w') : w = w' := by
  obtain ⟨c, hc, _, ho, hcr, _, b, hb, hv⟩ := h.ex
  obtain ⟨c', hc', _, ho', hcr', _, b', hb', hv'⟩ := h'.ex
  rw [hc] at hc'
  cases hc'
  rw [hb] at hb'
  cases hb'
  cases w; cases w'
  simp_all

theorem attached_not_refused {reg : PDict Str (Cls V R)} {m sup dflt kv w e} (h : Attached reg m sup dflt kv w)
    (h' : Refused reg m sup dflt kv e) : False := by
  obtain ⟨c, hc, hm, ho, hcr, hs, b, hb, hv⟩ := h.ex
  cases h' <;> simp_all

theorem get?_skip (reg : PDict Str (Cls V R)) (skipped rest : PDict Str (Kwd V)) (k : Str) (hk : (reg.get? k).isSome)
    (hs : ∀ p ∈ skipped, reg.get? p.1 = none) : PDict.get? (skipped ++ rest) k = PDict.get? rest k := by
  induction skipped with
  | nil => rfl
  | cons p t ih =>
    have hp := hs p (by simp)
    have hne : p.1 ≠ k := by intro h; rw [h] at hp; simp [hp] at hk
    simp only [List.cons_append, PDict.get?, hne, if_false]
    exact ih (fun q hq => hs q (by simp [hq]))

theorem erase_skip (reg : PDict Str (Cls V R)) (skipped rest : PDict Str (Kwd V)) (k : Str) (kv : Kwd V) (hk : (reg.get? k).isSome)
    (hs : ∀ p ∈ skipped, reg.get? p.1 = none) : PDict.erase (skipped ++ (k, kv) :: rest) k = skipped ++ rest := by
  induction skipped with
  | nil => simp [PDict.erase]
  | cons p t ih =>
    have hp := hs p (by simp)
    have hne : p.1 ≠ k := by intro h; rw [h] at hp; simp [hp] at hk
    simp only [List.cons_append, PDict.erase, hne, if_false]
    rw [ih (fun q hq => hs q (by simp [hq]))]

theorem unwrap_eq (dflt : Bool) (kv : Kwd V) : kv.unwrap dflt = (kwdValue kv, wantedCriticality dflt kv) := by
  cases kv <;> rfl

theorem filter_skip (reg : PDict Str (Cls V R)) (skipped : PDict Str (Kwd V)) (hs : ∀ p ∈ skipped, reg.get? p.1 = none) :
    skipped.filter (fun kv => !isControl reg kv) = skipped := by
  apply List.filter_eq_self.mpr
  intro p hp
  simp [isControl, hs p hp]

/-- what the loop does, given the arguments it has already skipped -/
theorem loop_char (reg : PDict Str (Cls V R)) (m : Str) (sup : List Str) (dflt : Bool) (rest : PDict Str (Kwd V)) :
    ∀ (skipped : PDict Str (Kwd V)) (ws : List Wire), (∀ p ∈ skipped, reg.get? p.1 = none) →
    (∃ ws', processLoop reg m sup dflt rest.keys (skipped ++ rest) ws = (.ok (ws ++ ws'), skipped ++ rest.filter (fun kv => !isControl reg kv)) ∧
      Pairwise2 (Attached reg m sup dflt) (rest.filter (isControl reg)) ws') ∨
    (∃ e left pre kv post ws', processLoop reg m sup dflt rest.keys (skipped ++ rest) ws = (.error e, left) ∧
      rest.filter (isControl reg) = pre ++ kv :: post ∧ Pairwise2 (Attached reg m sup dflt) pre ws' ∧ Refused reg m sup dflt kv e ∧
      left.filter (fun kv => !isControl reg kv) = skipped ++ rest.filter (fun kv => !isControl reg kv)) := by
  induction rest with
  | nil => intro skipped ws hs; left; exact ⟨[], by simp [processLoop, PDict.keys], .nil⟩
  | cons p rest ih =>
    obtain ⟨k, kv⟩ := p
    intro skipped ws hs
    have hkeys : PDict.keys ((k, kv) :: rest) = k :: PDict.keys rest := rfl
    cases hk : reg.get? k with
    | none =>
      have hic : isControl reg (k, kv) = false := by simp [isControl, hk]
      have := ih (skipped ++ [(k, kv)]) ws (by
        intro q hq
        rcases List.mem_append.mp hq with h | h
        · exact hs q h
        · simp at h; subst h; exact hk)
      simp only [List.append_assoc, List.cons_append, List.nil_append] at this
      rw [hkeys]
      simp only [processLoop, hk, List.filter_cons, hic, Bool.not_false, if_true]
      simpa using this
    | some c =>
      have hic : isControl reg (k, kv) = true := by simp [isControl, hk]
      have hsome : (reg.get? k).isSome := by simp [hk]
      have hget := get?_skip reg skipped ((k, kv) :: rest) k hsome hs
      have hgk : PDict.get? ((k, kv) :: rest) k = some kv := by simp [PDict.get?]
      rw [hgk] at hget
      have her := erase_skip reg skipped rest k kv hsome hs
      have hleft : (skipped ++ (k, kv) :: rest).filter (fun kv => !isControl reg kv) =
          skipped ++ rest.filter (fun kv => !isControl reg kv) := by
        rw [List.filter_append, filter_skip reg skipped hs, List.filter_cons]; simp [hic]
      have hleft' : (skipped ++ rest).filter (fun kv => !isControl reg kv) =
          skipped ++ rest.filter (fun kv => !isControl reg kv) := by
        rw [List.filter_append, filter_skip reg skipped hs]
      rw [hkeys]
      simp only [processLoop, hk, List.filter_cons, hic, Bool.not_true, if_true, hget, her, unwrap_eq]
      by_cases hm : c.method.has m = false
      · right
        exact ⟨.ldapError, skipped ++ (k, kv) :: rest, [], (k, kv), _, [], by simp [hm], rfl, .nil, .notApplicable c hk hm, by rw [hleft]; simp⟩
      · simp only [hm]
        have hm' : c.method.has m = true := by simpa using hm
        by_cases hc : wantedCriticality dflt kv = true ∧ c.requestOid ∉ sup
        · right
          have : (wantedCriticality dflt kv && !sup.contains c.requestOid) = true := by simp [hc.1, hc.2]
          exact ⟨.ldapSupport, skipped ++ rest, [], (k, kv), _, [], by rw [if_pos this]; simp, rfl, .nil, .unsupported c hk hm' hc.1 hc.2, by rw [hleft']; simp⟩
        · have hcf : (wantedCriticality dflt kv && !sup.contains c.requestOid) = false := by
            cases hw : wantedCriticality dflt kv <;> simp_all
          have himp : wantedCriticality dflt kv = true → c.requestOid ∈ sup := by
            intro h1; apply Classical.byContradiction; intro h2; exact hc ⟨h1, h2⟩
          simp only [hcf, Bool.false_eq_true, if_false]
          cases hp : c.prepare (kwdValue kv) with
          | error e =>
            right
            exact ⟨e, skipped ++ rest, [], (k, kv), _, [], rfl, rfl, .nil, .badValue c e hk hm' himp hp, by rw [hleft']; try simp⟩
          | ok b =>
            have hat : Attached reg m sup dflt (k, kv) (basePrepare c.requestOid b (wantedCriticality dflt kv)) :=
              ⟨c, hk, hm', rfl, rfl, himp, b, hp, by cases b <;> simp [basePrepare]⟩
            rcases ih skipped (ws ++ [basePrepare c.requestOid b (wantedCriticality dflt kv)]) hs with
              ⟨ws', h1, h2⟩ | ⟨e, left, pre, kv', post, ws', h1, h2, h3, h4, h5⟩
            · left
              exact ⟨basePrepare c.requestOid b (wantedCriticality dflt kv) :: ws', by simpa using h1, .cons hat h2⟩
            · right
              exact ⟨e, left, (k, kv) :: pre, kv', post, _ :: ws', by simpa using h1, by simp [h2], .cons hat h3, h4, by simpa using h5⟩

theorem pairwise_functional {reg : PDict Str (Cls V R)} {m sup dflt l ws ws'} (h : Pairwise2 (Attached reg m sup dflt) l ws)
    (h' : Pairwise2 (Attached reg m sup dflt) l ws') : ws = ws' := by
  induction h generalizing ws' with
  | nil => cases h'; rfl
  | cons ha _ ih => cases h' with | cons ha' h2 => rw [attached_functional ha ha', ih h2]

theorem pairwise_no_refused {reg : PDict Str (Cls V R)} {m sup dflt pre kv post ws e}
    (h : Pairwise2 (Attached reg m sup dflt) (pre ++ kv :: post) ws) (h' : Refused reg m sup dflt kv e) : False := by
  induction pre generalizing ws with
  | nil => cases h with | cons ha _ => exact attached_not_refused ha h'
  | cons p pre ih => cases h with | cons _ h2 => exact ih h2

end Ctl
open Ctl

/-- C30: the call succeeds exactly when every keyword that names a registered control can be attached (applicable to the method, supported if
critical, value accepted) and, for a final call, no other keyword is left; the controls are then one per such keyword, in order, with the
requested criticality and value, and there are none (`None`) only if there was no such keyword. -/
theorem c30_attached (r : Reg V R) (m : Str) (kwds : PDict Str (Kwd V)) (sup : List Str) (dflt final : Bool) (res : Option (List Wire)) :
    (processKwds r m kwds sup dflt final).1 = .ok res ↔
      (∃ ws, Pairwise2 (Attached r.byKwd m sup dflt) (kwds.filter (isControl r.byKwd)) ws ∧ res = (if ws = [] then none else some ws)) ∧
      (final = true → ∀ kv ∈ kwds, isControl r.byKwd kv = true) := by
  unfold processKwds
  rcases loop_char r.byKwd m sup dflt kwds [] [] (by simp) with ⟨ws', h1, h2⟩ | ⟨e, left, pre, kv, post, ws', h1, h2, h3, h4, h5⟩
  · simp only [List.nil_append] at h1
    rw [h1]
    simp only []
    have hlen : (final && decide ((kwds.filter (fun kv => !isControl r.byKwd kv)).length > 0)) = true ↔
        ¬ (final = true → ∀ kv ∈ kwds, isControl r.byKwd kv = true) := by
      cases final
      · simp
      · simp only [Bool.true_and, decide_eq_true_eq, forall_const, Classical.not_forall, List.length_pos_iff_exists_mem, List.mem_filter]
        constructor
        · rintro ⟨kv, h1, h2⟩; exact ⟨kv, h1, by simpa using h2⟩
        · rintro ⟨kv, h1, h2⟩; exact ⟨kv, h1, by simpa using h2⟩
    split
    · rename_i hc
      have := hlen.mp hc
      constructor
      · intro h; cases h
      · intro h; exact absurd h.2 this
    · rename_i hc
      have := Classical.not_not.mp (fun h => hc (hlen.mpr h))
      constructor
      · intro h
        cases h
        exact ⟨⟨ws', h2, by cases ws' <;> simp⟩, this⟩
      · rintro ⟨⟨ws, h3, rfl⟩, _⟩
        have := pairwise_functional h2 h3
        subst this
        cases ws' <;> simp
  · simp only [List.nil_append] at h1
    rw [h1]
    constructor
    · intro h; cases h
    · rintro ⟨⟨ws, h6, _⟩, _⟩
      rw [h2] at h6
      exact (pairwise_no_refused h6 h4).elim

/-- C30: when the call raises, it is because of the first keyword that cannot be attached, with the exception belonging to it, or – when all
can – because a final call has keywords left over. -/
theorem c30_refused (r : Reg V R) (m : Str) (kwds : PDict Str (Kwd V)) (sup : List Str) (dflt final : Bool) (e : Err)
    (h : (processKwds r m kwds sup dflt final).1 = .error e) :
    (∃ pre kv post ws, kwds.filter (isControl r.byKwd) = pre ++ kv :: post ∧ Pairwise2 (Attached r.byKwd m sup dflt) pre ws ∧
      Refused r.byKwd m sup dflt kv e) ∨
    (e = .typeError ∧ final = true ∧ ∃ kv ∈ kwds, isControl r.byKwd kv = false) := by
  unfold processKwds at h
  rcases loop_char r.byKwd m sup dflt kwds [] [] (by simp) with ⟨ws', h1, h2⟩ | ⟨e', left, pre, kv, post, ws', h1, h2, h3, h4, h5⟩
  · simp only [List.nil_append] at h1
    rw [h1] at h
    simp only [] at h
    split at h
    · rename_i hc
      right
      cases h
      simp only [Bool.and_eq_true, decide_eq_true_eq, List.length_pos_iff_exists_mem, List.mem_filter] at hc
      obtain ⟨hf, kv, hkv, hn⟩ := hc
      exact ⟨rfl, hf, kv, hkv, by simpa using hn⟩
    · cases h
  · simp only [List.nil_append] at h1
    rw [h1] at h
    cases h
    exact .inl ⟨pre, kv, post, ws', h2, h3, h4⟩

/-- C30: whatever happens, keywords that name no control stay in the caller's dict, with their values and order; after a successful call
only those are left. -/
theorem c30_others_untouched (r : Reg V R) (m : Str) (kwds : PDict Str (Kwd V)) (sup : List Str) (dflt final : Bool) :
    (processKwds r m kwds sup dflt final).2.filter (fun kv => !isControl r.byKwd kv) = kwds.filter (fun kv => !isControl r.byKwd kv) ∧
    (∀ res, (processKwds r m kwds sup dflt final).1 = .ok res →
      (processKwds r m kwds sup dflt final).2 = kwds.filter (fun kv => !isControl r.byKwd kv)) := by
  unfold processKwds
  rcases loop_char r.byKwd m sup dflt kwds [] [] (by simp) with ⟨ws', h1, h2⟩ | ⟨e', left, pre, kv, post, ws', h1, h2, h3, h4, h5⟩
  · simp only [List.nil_append] at h1
    rw [h1]
    simp only []
    split <;> simp
  · simp only [List.nil_append] at h1
    rw [h1]
    exact ⟨by simpa using h5, by intro res h; cases h⟩

/-! ### C31 -/

/-- Exactly what `handle_response` does when it succeeds: it succeeds iff every control's OID is registered, its value decodes, and the attribute it is
stored under is new (not an attribute of the object, nor of an earlier control); then the object has gained exactly these attributes,
in order. -/
theorem c31_stored_partial (r : Reg V R) (t t' : Target R) (ws : List Wire) :
    handleResponse r t ws = (.ok (), t') ↔
      ∃ new : List (Str × R), t' = ⟨t.own, t.got ++ new⟩ ∧
        Pairwise2 (fun w (p : Str × R) => ∃ c, r.resp.get? w.oid = some c ∧ p.1 = c.responseAttr ∧ c.handle w.value = .ok p.2) ws new ∧
        (new.map Prod.fst).Nodup ∧ ∀ p ∈ new, p.1 ∉ t.own ∧ p.1 ∉ t.got.keys := by
  induction ws generalizing t with
  | nil =>
    constructor
    · intro h; cases h; exact ⟨[], by simp, .nil, by simp, by simp⟩
    · rintro ⟨new, rfl, h, _, _⟩; cases h; simp [handleResponse]
  | cons w ws ih =>
    cases hc : r.resp.get? w.oid with
    | none =>
      constructor
      · intro h; simp [handleResponse, hc] at h
      · rintro ⟨new, rfl, h, _, _⟩
        cases h with | cons h1 _ => obtain ⟨c, h2, _⟩ := h1; rw [hc] at h2; cases h2
    | some c =>
      cases hv : c.handle w.value with
      | error e =>
        constructor
        · intro h; simp [handleResponse, hc, hv] at h
        · rintro ⟨new, rfl, h, _, _⟩
          cases h with | cons h1 _ => obtain ⟨c', h2, _, h3⟩ := h1; rw [hc] at h2; cases h2; rw [hv] at h3; cases h3
      | ok v =>
        have hset : ∀ (a : Str), a ∉ t.got.keys → t.got.set a v = t.got ++ [(a, v)] := by
          intro a
          generalize t.got = g
          induction g with
          | nil => intro _; rfl
          | cons q g ihg =>
            intro ha
            have h1 : q.1 ≠ a := by intro h; exact ha (by simp [PDict.keys, h])
            have h2 : a ∉ PDict.keys g := by intro h; exact ha (by simp [PDict.keys] at h ⊢; exact .inr h)
            obtain ⟨q1, q2⟩ := q
            simp only [PDict.set, List.cons_append]
            rw [if_neg h1, ihg h2]
        have hhas : t.has c.responseAttr = true ↔ (c.responseAttr ∈ t.own ∨ c.responseAttr ∈ t.got.keys) := by
          simp [Target.has, Option.isSome_iff_exists, PDict.mem_keys_iff]
        by_cases hh : t.has c.responseAttr = true
        · constructor
          · intro h; simp [handleResponse, hc, hv, hh] at h
          · rintro ⟨new, rfl, h, _, h4⟩
            cases h with
            | cons h1 _ =>
              obtain ⟨c', h2, h3, _⟩ := h1; rw [hc] at h2; cases h2
              have := h4 _ (List.mem_cons_self ..)
              rw [h3] at this
              rcases hhas.mp hh with h5 | h5
              · exact absurd h5 this.1
              · exact absurd h5 this.2
        · have hnot : c.responseAttr ∉ t.own ∧ c.responseAttr ∉ t.got.keys := by
            constructor <;> (intro h5; exact hh (hhas.mpr (by simp [h5])))
          have hstep : handleResponse r t (w :: ws) = handleResponse r ⟨t.own, t.got ++ [(c.responseAttr, v)]⟩ ws := by
            simp [handleResponse, hc, hv, hh, hset _ hnot.2]
          rw [hstep, ih]
          constructor
          · rintro ⟨new, rfl, h2, h3, h4⟩
            refine ⟨(c.responseAttr, v) :: new, by simp, .cons ⟨c, hc, rfl, hv⟩ h2, ?_, ?_⟩
            · simp only [List.map_cons, List.nodup_cons]
              refine ⟨?_, h3⟩
              intro hm
              obtain ⟨p, hp, hpe⟩ := List.mem_map.mp hm
              have := (h4 p hp).2
              rw [hpe] at this
              exact this (by simp [PDict.keys])
            · intro p hp
              rcases List.mem_cons.mp hp with rfl | hp
              · exact hnot
              · have := h4 p hp
                exact ⟨this.1, fun h => this.2 (by simp [PDict.keys] at h ⊢; exact .inl h)⟩
          · rintro ⟨new, rfl, h2, h3, h4⟩
            cases h2 with
            | cons h1 h2' =>
              rename_i p new'
              obtain ⟨c', h5, h6, h7⟩ := h1
              rw [hc] at h5; cases h5
              rw [hv] at h7; cases h7
              obtain ⟨p1, p2⟩ := p
              simp only at h6
              subst h6
              simp only [List.map_cons, List.nodup_cons] at h3
              refine ⟨new', by simp, h2', h3.2, ?_⟩
              intro p hp
              have := h4 p (by simp [hp])
              refine ⟨this.1, ?_⟩
              intro h
              simp only [PDict.keys, List.map_append, List.map_cons, List.map_nil, List.mem_append, List.mem_singleton] at h
              rcases h with h | h
              · exact this.2 h
              · exact h3.1 (List.mem_map.mpr ⟨p, hp, h⟩)

/-- C31: an unregistered OID always raises, whatever came before: the call never succeeds. -/
theorem c31_unregistered (r : Reg V R) (t : Target R) (ws : List Wire) (w : Wire) (hw : w ∈ ws) (hu : r.resp.get? w.oid = none) :
    ∃ e, (handleResponse r t ws).1 = .error e := by
  induction ws generalizing t with
  | nil => cases hw
  | cons x ws ih =>
    simp only [handleResponse]
    split
    · exact ⟨_, rfl⟩
    · rename_i c hc
      split
      · exact ⟨_, rfl⟩
      · split
        · exact ⟨_, rfl⟩
        · rcases List.mem_cons.mp hw with rfl | h
          · rw [hu] at hc; cases hc
          · exact ih _ h

/-- C31 is false as far as ignoring goes: a non-critical control nobody registered makes the call raise. -/
theorem c31_noncritical_not_ignored : ∃ (w : Wire), w.critical = false ∧
    handleResponse ({} : Reg Unit Nat) ⟨[], []⟩ [w] = (.error .extension, ⟨[], []⟩) :=
  ⟨⟨str "1.2.3", false, none⟩, rfl, rfl⟩

/-! ### C61 registration -/

/-- Registry consistency: the two request tables hold the same classes, filed under their own keyword and OID, applicable to some method,
never under a reserved keyword; the response table files each class under its own OID, with an attribute name. -/
structure RegOk (r : Reg V R) : Prop where
  kwd : ∀ k c, r.byKwd.get? k = some c → c.keyword = k ∧ k ≠ [] ∧ k ∉ reserved ∧ c.requestOid ≠ [] ∧ c.method.empty = false ∧ r.byOid.get? c.requestOid = some c
  oid : ∀ o c, r.byOid.get? o = some c → c.requestOid = o ∧ r.byKwd.get? c.keyword = some c
  resp : ∀ o c, r.resp.get? o = some c → c.responseOid = o ∧ o ≠ [] ∧ c.responseAttr ≠ []

theorem Ctl.registerRequest_ok {r r' : Reg V R} {c : Cls V R} (h : RegOk r) (h' : r.registerRequest c = .ok r') :
    RegOk r' ∧ (∀ k x, r.byKwd.get? k = some x → r'.byKwd.get? k = some x) ∧ (∀ k x, r.byOid.get? k = some x → r'.byOid.get? k = some x) ∧ r'.resp = r.resp := by
  unfold Reg.registerRequest at h'
  split at h'
  · cases h'; exact ⟨h, fun _ _ h => h, fun _ _ h => h, rfl⟩
  · rename_i h1
    split at h'
    · cases h'
    · rename_i h2
      split at h'
      · cases h'
      · rename_i h3
        split at h'
        · cases h'
        · rename_i h4
          split at h'
          · cases h'
          · rename_i h5
            split at h'
            · cases h'
            · rename_i h6
              cases h'
              have hk : r.byKwd.get? c.keyword = none := by cases hx : r.byKwd.get? c.keyword <;> simp_all
              have ho : r.byOid.get? c.requestOid = none := by cases hx : r.byOid.get? c.requestOid <;> simp_all
              refine ⟨⟨?_, ?_, h.resp⟩, ?_, ?_, rfl⟩
              · intro k x hx
                simp only [PDict.get?_set] at hx ⊢
                split at hx
                · cases hx; rename_i hkk; subst hkk; simp_all
                · rename_i hne
                  obtain ⟨a, b, d, e, f, g⟩ := h.kwd k x hx
                  refine ⟨a, b, d, e, f, ?_⟩
                  split
                  · rename_i heq; rw [heq, ho] at g; cases g
                  · exact g
              · intro o x hx
                simp only [PDict.get?_set] at hx ⊢
                split at hx
                · cases hx; rename_i hkk; subst hkk; simp
                · rename_i hne
                  obtain ⟨a, b⟩ := h.oid o x hx
                  refine ⟨a, ?_⟩
                  split
                  · rename_i heq; rw [heq, hk] at b; cases b
                  · exact b
              · intro k x hx
                simp only [PDict.get?_set]
                split
                · rename_i heq; rw [heq, hk] at hx; cases hx
                · exact hx
              · intro k x hx
                simp only [PDict.get?_set]
                split
                · rename_i heq; rw [heq, ho] at hx; cases hx
                · exact hx

theorem Ctl.registerResponse_ok {r r' : Reg V R} {c : Cls V R} (h : RegOk r) (h' : r.registerResponse c = .ok r') :
    RegOk r' ∧ r'.byKwd = r.byKwd ∧ r'.byOid = r.byOid ∧ ∀ o x, r.resp.get? o = some x → r'.resp.get? o = some x := by
  unfold Reg.registerResponse at h'
  split at h'
  · cases h'; exact ⟨h, rfl, rfl, fun _ _ h => h⟩
  · rename_i h1
    split at h'
    · cases h'
    · rename_i h2
      split at h'
      · cases h'
      · rename_i h3
        cases h'
        have hk : r.resp.get? c.responseOid = none := by cases hx : r.resp.get? c.responseOid <;> simp_all
        refine ⟨⟨h.kwd, h.oid, ?_⟩, rfl, rfl, ?_⟩
        · intro o x hx
          simp only [PDict.get?_set] at hx
          split at hx
          · cases hx; rename_i hkk; subst hkk; simp_all
          · exact h.resp o x hx
        · intro o x hx
          simp only [PDict.get?_set]
          split
          · rename_i heq; rw [heq, hk] at hx; cases hx
          · exact hx

theorem Ctl.register_ok {r : Reg V R} (c : Cls V R) (h : RegOk r) : RegOk (r.register c).2 ∧
    (∀ k x, r.byKwd.get? k = some x → (r.register c).2.byKwd.get? k = some x) ∧
    (∀ k x, r.byOid.get? k = some x → (r.register c).2.byOid.get? k = some x) ∧
    (∀ k x, r.resp.get? k = some x → (r.register c).2.resp.get? k = some x) := by
  unfold Reg.register
  cases h1 : r.registerRequest c with
  | error e => exact ⟨h, fun _ _ h => h, fun _ _ h => h, fun _ _ h => h⟩
  | ok r1 =>
    obtain ⟨a1, a2, a3, a4⟩ := Ctl.registerRequest_ok h h1
    simp only []
    cases h2 : r1.registerResponse c with
    | error e => exact ⟨a1, a2, a3, by rw [a4]; exact fun _ _ h => h⟩
    | ok r2 =>
      obtain ⟨b1, b2, b3, b4⟩ := Ctl.registerResponse_ok a1 h2
      refine ⟨b1, ?_, ?_, ?_⟩
      · simp only [b2]; exact a2
      · simp only [b3]; exact a3
      · rw [a4] at b4; exact b4

/-- C61: after any sequence of registrations the tables are consistent – a control's keyword and OID lead to the same control, keywords are
not reserved and not empty, and every registered response control has an attribute name. -/
theorem c61_consistent (cs : List (Cls V R)) : RegOk (({} : Reg V R).registerAll cs) := by
  have : ∀ (cs : List (Cls V R)) (r : Reg V R), RegOk r → RegOk (r.registerAll cs) := by
    intro cs
    induction cs with
    | nil => intro r h; exact h
    | cons c cs ih => intro r h; exact ih _ (Ctl.register_ok c h).1
  apply this
  constructor <;> intro k c h <;> cases h

/-- C61: a registration never changes what an earlier one put under a keyword, OID or response OID. -/
theorem c61_first_stays (cs cs' : List (Cls V R)) (k : Str) (x : Cls V R) :
    let r := ({} : Reg V R).registerAll cs
    let r' := ({} : Reg V R).registerAll (cs ++ cs')
    (r.byKwd.get? k = some x → r'.byKwd.get? k = some x) ∧ (r.getControl k = .ok x → r'.getControl k = .ok x) ∧
      (r.resp.get? k = some x → r'.resp.get? k = some x) := by
  have happ : ∀ (cs : List (Cls V R)) (r : Reg V R), r.registerAll (cs ++ cs') = (r.registerAll cs).registerAll cs' := by
    intro cs
    induction cs with
    | nil => intro r; rfl
    | cons c cs ih => intro r; exact ih _
  have key : ∀ (cs : List (Cls V R)) (r : Reg V R), RegOk r → (r.byKwd.get? k = some x → (r.registerAll cs).byKwd.get? k = some x) ∧
      (r.byOid.get? k = some x → (r.registerAll cs).byOid.get? k = some x) ∧ (r.resp.get? k = some x → (r.registerAll cs).resp.get? k = some x) := by
    intro cs
    induction cs with
    | nil => intro r _; exact ⟨id, id, id⟩
    | cons c cs ih =>
      intro r h
      obtain ⟨a, b, d, e⟩ := Ctl.register_ok c h
      obtain ⟨p, q, s⟩ := ih _ a
      exact ⟨fun h => p (b k x h), fun h => q (d k x h), fun h => s (e k x h)⟩
  intro r r'
  have hr' : r' = r.registerAll cs' := happ cs {}
  obtain ⟨p, q, s⟩ := key cs' r (c61_consistent cs)
  rw [hr']
  refine ⟨p, ?_, s⟩
  unfold Reg.getControl
  intro h
  split at h
  · rename_i c hc; cases h; rw [q hc]
  · cases h

/-- C61: a successful registration is found under its keyword, its OID and its response OID. -/
theorem c61_found (r : Reg V R) (c : Cls V R) (h : (r.register c).1 = .ok ()) :
    (c.requestOid ≠ [] → (r.register c).2.byKwd.get? c.keyword = some c ∧ (r.register c).2.getControl c.requestOid = .ok c) ∧
    (c.responseOid ≠ [] → (r.register c).2.resp.get? c.responseOid = some c) := by
  unfold Reg.register at h ⊢
  cases h1 : r.registerRequest c with
  | error e => simp [h1] at h
  | ok r1 =>
    simp only [h1] at h ⊢
    cases h2 : r1.registerResponse c with
    | error e => simp [h2] at h
    | ok r2 =>
      simp only []
      have e2 : r2.byKwd = r1.byKwd ∧ r2.byOid = r1.byOid ∧ (c.responseOid ≠ [] → r2.resp.get? c.responseOid = some c) := by
        unfold Reg.registerResponse at h2
        split at h2
        · cases h2; rename_i h3; exact ⟨rfl, rfl, fun hn => by simp at h3; exact absurd h3 hn⟩
        · split at h2
          · cases h2
          · split at h2
            · cases h2
            · cases h2; exact ⟨rfl, rfl, fun _ => by simp [PDict.get?_set]⟩
      refine ⟨?_, e2.2.2⟩
      intro hn
      unfold Reg.registerRequest at h1
      split at h1
      · rename_i h3; simp at h3; exact absurd h3 hn
      · split at h1
        · cases h1
        · split at h1
          · cases h1
          · split at h1
            · cases h1
            · split at h1
              · cases h1
              · split at h1
                · cases h1
                · cases h1
                  simp [Reg.getControl, e2.1, e2.2.1, PDict.get?_set]

/-- a control with both sides, and another with a different request side but the same response OID -/
def exCtl (kwd oid resp : Str) : Cls Nat Nat :=
  { method := .names [str "search"], keyword := kwd, responseAttr := str "a", requestOid := oid, responseOid := resp,
    prepare := fun v => if v = 0 then .error .typeError else .ok [v], handle := fun v => match v with | some [x] => .ok x | _ => .error .ldapError }

/-- C61 "a refused registration changes nothing" is false: when the response OID is taken, the request side has already been
registered and stays usable. -/
theorem c61_half_registered : let r := (({} : Reg Nat Nat).register (exCtl (str "k") (str "1") (str "9"))).2
    (r.register (exCtl (str "l") (str "2") (str "9"))).1 = .error .extension ∧
    (r.byKwd.get? (str "l")).isSome = false ∧ ((r.register (exCtl (str "l") (str "2") (str "9"))).2.byKwd.get? (str "l")).isSome = true := by
  refine ⟨rfl, rfl, rfl⟩

/-- the parameters of the methods of `LDAP` that take control keywords, from their signatures (base.py:385, 455, 560, 584, 622-624, 738, 781, 907, 926, 955,
968, 984, 1052, 1075, 1101, 1128, 1629) -/
def methodParameters : List Str :=
  [str "self", str "username", str "password", str "mech", str "dn", str "attrs_dict", str "tag", str "attrs", str "base_dn", str "scope", str "filter",
   str "search_timeout", str "limit", str "deref_aliases", str "attrs_only", str "fetch_result_refs", str "follow_referrals", str "filter_syntax",
   str "attr", str "value", str "new_rdn", str "clean_attr", str "new_parent", str "new_dn", str "modlist", str "current", str "oid", str "require_success",
   str "relative_search_scope", str "rdn_attr"]

/-- C61: no control can take the name of a parameter of the operations (only `new_dn` of `move` is missing from the list): registering it raises and changes nothing. -/
theorem c61_parameters_reserved (r : Reg V R) (c : Cls V R) (hk : c.keyword ∈ methodParameters) (hn : c.keyword ≠ str "new_dn") (ho : c.requestOid ≠ []) :
    (∃ e, (r.register c).1 = .error e) ∧ (r.register c).2 = r := by
  have hr : c.keyword ∈ reserved := by
    have : ∀ k ∈ methodParameters, k ≠ str "new_dn" → k ∈ reserved := by decide
    exact this _ hk hn
  have : ∃ e, r.registerRequest c = .error e := by
    unfold Reg.registerRequest
    rw [if_neg (by simpa using ho)]
    rw [if_pos hr]
    split
    · exact ⟨_, rfl⟩
    · split <;> exact ⟨_, rfl⟩
  obtain ⟨e, he⟩ := this
  simp [Reg.register, he]

/-- C61 (finding): a control may take the keyword `new_dn`, a parameter of `move`. -/
theorem c61_new_dn_not_reserved : (({} : Reg Nat Nat).register (exCtl (str "new_dn") (str "1") [])).1 = .ok () := by decide

example : (exCtl (str "filter") (str "1") []).keyword ∈ methodParameters := by decide

/-! ### The statements are not vacuous -/

/-- two controls, one critical and supported, one optional and not, among ordinary keywords: both are attached, the others stay -/
example : let r := ({} : Reg Nat Nat).registerAll [exCtl (str "k") (str "1") [], exCtl (str "l") (str "2") []]
    processKwds r (str "search") [(str "k", .critical 5), (str "rdn_attr", .plain 7), (str "l", .plain 6)] [str "1"] false false =
      (.ok (some [⟨str "1", true, some [5]⟩, ⟨str "2", false, some [6]⟩]), [(str "rdn_attr", .plain 7)]) := by decide

/-- refusals of each kind -/
example : let r := ({} : Reg Nat Nat).registerAll [exCtl (str "k") (str "1") []]
    (processKwds r (str "add") [(str "k", .plain 5)] [] false true).1 = .error .ldapError ∧
    (processKwds r (str "search") [(str "k", .plain 5)] [] true true).1 = .error .ldapSupport ∧
    (processKwds r (str "search") [(str "k", .optional 0)] [] true true).1 = .error .typeError ∧
    (processKwds r (str "search") [(str "x", .plain 5)] [] true true).1 = .error .typeError := by decide

/-- response attributes are set -/
example : (handleResponse (({} : Reg Nat Nat).registerAll [exCtl (str "k") (str "1") (str "9")]) ⟨[str "done"], []⟩ [⟨str "9", false, some [3]⟩]).2.got =
    [(str "a", 3)] := by decide

end Laurelin.Props
