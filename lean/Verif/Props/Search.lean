import Verif.Model.Search
import Verif.Spec.Controls
/-!
# C29 get/exists, C55 compare, C56 search iteration, C62 abandoning, C63 extended responses, C64 results of writes
-/
namespace Laurelin.Props
open Laurelin Laurelin.Controls Laurelin.Spec Laurelin.Search
variable {V R E : Type}

/-- Specification: the objects a message before the final result stands for. An entry is one object carrying its response controls; a
reference is a reference handle, or, when references are to be fetched, the objects fetched from there. -/
inductive Received (env : Env V R E) : Msg E → List (Item E R) → Prop where
  | entry (e : E) (cs : List Wire) (own : List Str) (attrs : PDict Str R) :
      handleResponse env.reg ⟨env.objOwn, []⟩ cs = (.ok (), ⟨own, attrs⟩) → Received env (.entry e cs) [.entry e attrs]
  | ref (uris : List Str) (cs : List Wire) (own : List Str) (attrs : PDict Str R) : env.fetchRefs = false →
      handleResponse env.reg ⟨env.refOwn, []⟩ cs = (.ok (), ⟨own, attrs⟩) → Received env (.ref uris cs) [.ref uris attrs]
  | fetched (uris : List Str) (cs : List Wire) (l : List (Item E R)) : env.fetchRefs = true → env.fetch uris = (l, none) →
      Received env (.ref uris cs) l

/-- one received message is yielded as specified, and the loop goes on -/
theorem Search.step_received {env : Env V R E} {m : Msg E} {l : List (Item E R)} (h : Received env m l) (t : Target R) (ms : List (Msg E)) :
    iterate env none t (m :: ms) = (iterate env none t ms).after l := by
  cases h with
  | entry e cs own attrs h => simp [iterate, h]
  | ref uris cs own attrs hf h => simp [iterate, hf, h]
  | fetched uris cs l hf h => simp [iterate, hf, h]

theorem Search.iterate_append {env : Env V R E} {pre : List (Msg E)} {items : List (List (Item E R))}
    (h : Pairwise2 (Received env) pre items) (t : Target R) (ms : List (Msg E)) :
    iterate env none t (pre ++ ms) = (iterate env none t ms).after items.flatten := by
  induction h with
  | nil => simp [Out.after]
  | cons ha _ ih => rw [List.cons_append, Search.step_received ha, ih]; simp [Out.after]

/-- C56: everything received before the final result is yielded, once each and in order; iteration then stops there – it raises exactly when the result
is not success, not noSuchObject and not an ignored referral – the messages behind are not consumed, and on success or noSuchObject the
final message's response controls are on the handle. (Followed referrals: see `c56_referral_hangs`.) -/
theorem c56_iterates (env : Env V R E) (t t' : Target R) (pre post : List (Msg E)) (items : List (List (Item E R))) (code : Nat)
    (cs : List Wire) (refs : List Str) (h : Pairwise2 (Received env) pre items)
    (hr : code = 10 → env.follow = false) (hc : handleResponse env.reg t cs = (.ok (), t')) :
    let o := iterate env none t (pre ++ .done code cs refs :: post)
    o.yields = items.flatten ∧ o.rest = post ∧ o.done = true ∧
    (code = 0 ∨ code = 32 ∨ code = 10 → o.ending = .stop) ∧
    (code ≠ 0 ∧ code ≠ 32 ∧ code ≠ 10 → o.ending = .raised .ldapError) ∧
    (code = 0 ∨ code = 32 → o.target = t') := by
  intro o
  have ho : o = (iterate env none t (.done code cs refs :: post)).after items.flatten := Search.iterate_append h t _
  rw [ho]
  simp only [iterate, rcSuccess, rcNoSuchObject, rcReferral, hc, Out.after]
  by_cases h1 : code = 0 ∨ code = 32
  · rcases h1 with h1 | h1 <;> simp [h1]
  · by_cases h2 : code = 10
    · simp [h2, hr h2]
    · simp only [not_or] at h1
      simp [h1.1, h1.2, h2]

/-- C56: while there is no final result, iteration yields what came and waits: it neither stops nor raises early. -/
theorem c56_waits (env : Env V R E) (t : Target R) (pre : List (Msg E)) (items : List (List (Item E R)))
    (h : Pairwise2 (Received env) pre items) :
    let o := iterate env none t pre
    o.yields = items.flatten ∧ o.ending = .waiting ∧ o.done = false := by
  have := Search.iterate_append h t []
  simp only [List.append_nil] at this
  simp [this, iterate, Out.after]

/-- C56: an entry whose response controls cannot be processed ends the iteration with that exception, after everything before it. -/
theorem c56_bad_control (env : Env V R E) (t o' : Target R) (pre post : List (Msg E)) (items : List (List (Item E R))) (e : E) (cs : List Wire) (err : Err)
    (h : Pairwise2 (Received env) pre items) (hc : handleResponse env.reg ⟨env.objOwn, []⟩ cs = (.error err, o')) :
    let o := iterate env none t (pre ++ .entry e cs :: post)
    o.yields = items.flatten ∧ o.ending = .raised err ∧ o.rest = post := by
  intro o
  have ho : o = (iterate env none t (.entry e cs :: post)).after items.flatten := Search.iterate_append h t _
  rw [ho]
  simp [iterate, Out.after, hc]

/-- Fetching a reference never yields an object: it always ends in an exception. -/
theorem Search.fetch_fails (parse search : Str → Except Err Unit) (uris : List Str) :
    ∃ e, (fetchUris parse search uris : List (Item E R) × Option Err) = ([], some e) := by
  unfold fetchUris
  split
  · exact ⟨_, rfl⟩
  · split <;> exact ⟨_, rfl⟩

/-- C56 fails for references when they are to be fetched (the default): with the code's own `fetch`, which closes the
connection before reading it, a reference ends the iteration with an exception; nothing behind it, not even the final result, is seen. -/
theorem c56_reference_raises (env : Env V R E) (parse search : Str → Except Err Unit) (t : Target R) (pre post : List (Msg E))
    (items : List (List (Item E R))) (uris : List Str) (cs : List Wire) (hf : env.fetchRefs = true) (hfetch : env.fetch = fetchUris parse search)
    (h : Pairwise2 (Received env) pre items) :
    let o := iterate env none t (pre ++ .ref uris cs :: post)
    o.yields = items.flatten ∧ (∃ e, o.ending = .raised e) ∧ o.rest = post := by
  intro o
  have ho : o = (iterate env none t (.ref uris cs :: post)).after items.flatten := Search.iterate_append h t _
  rw [ho]
  obtain ⟨e, he⟩ := Search.fetch_fails (E := E) (R := R) parse search uris
  simp [iterate, Out.after, hf, hfetch, he]

/-- ... and when the referenced server can be reached and searched, that exception is `OSError` (read on a closed socket). -/
theorem c56_reference_closed (parse search : Str → Except Err Unit) (u : Str) (us : List Str)
    (hp : ∀ x ∈ u :: us, parse x = .ok ()) (hs : search u = .ok ()) :
    (fetchUris parse search (u :: us) : List (Item E R) × Option Err) = ([], some .osError) := by
  have : ∀ l : List Str, (∀ x ∈ l, parse x = .ok ()) → parseAll parse l = .ok () := by
    intro l
    induction l with
    | nil => intro _; rfl
    | cons x l ih => intro h; simp [parseAll, h x (by simp), ih (fun y hy => h y (by simp [hy]))]
  simp [fetchUris, this _ hp, fetchLoop, hs]

/-- C56: a message of another kind among the results ends the iteration with an exception, after everything before it was yielded; it is not skipped. -/
theorem c56_foreign_message (env : Env V R E) (t : Target R) (pre post : List (Msg E)) (items : List (List (Item E R)))
    (h : Pairwise2 (Received env) pre items) :
    let o := iterate env none t (pre ++ .other :: post)
    o.yields = items.flatten ∧ o.ending = .raised .unexpectedResponse ∧ o.rest = post ∧ o.done = false := by
  intro o
  have ho : o = (iterate env none t (.other :: post)).after items.flatten := Search.iterate_append h t _
  rw [ho]
  simp [iterate, Out.after]

/-- C56: the URIs of a reference are tried in order; only a failure to connect moves on to the next one. Any other failure is what the user gets, and if
no server can be reached it is `LDAPError`. -/
theorem c56_reference_order (parse search : Str → Except Err Unit) (us1 us2 : List Str)
    (hp : ∀ x ∈ us1 ++ us2, parse x = .ok ()) (h1 : ∀ x ∈ us1, search x = .error .connection) :
    let r : List (Item E R) × Option Err := fetchUris parse search (us1 ++ us2)
    (us2 = [] → r = ([], some .ldapError)) ∧
    (∀ u us, us2 = u :: us → search u = .ok () → r = ([], some .osError)) ∧
    (∀ u us e, us2 = u :: us → e ≠ .connection → search u = .error e → r = ([], some e)) := by
  have hpa : ∀ l : List Str, (∀ x ∈ l, parse x = .ok ()) → parseAll parse l = .ok () := by
    intro l
    induction l with
    | nil => intro _; rfl
    | cons x l ih => intro h; simp [parseAll, h x (by simp), ih (fun y hy => h y (by simp [hy]))]
  have hl : fetchLoop search (us1 ++ us2) = fetchLoop search us2 := by
    clear hp hpa
    induction us1 with
    | nil => rfl
    | cons x l ih =>
      rw [List.cons_append, fetchLoop, h1 x (by simp)]
      exact ih (fun y hy => h1 y (by simp [hy]))
  simp only [fetchUris, hpa _ hp, hl]
  refine ⟨?_, ?_, ?_⟩
  · rintro rfl; rfl
  · rintro u us rfl hs; simp [fetchLoop, hs]
  · rintro u us e rfl he hs
    rw [fetchLoop, hs]
    cases e <;> first | rfl | exact absurd rfl he

/-- the hypotheses are met: first server down, second answers with an authentication problem -/
example : (fetchUris (fun _ => .ok ()) (fun u => if u = str "ldap://a" then .error .connection else .error .invalidCredentials) [str "ldap://a", str "ldap://b"] :
    List (Item Nat Nat) × Option Err) = ([], some .invalidCredentials) := by decide

/-- C56 fails for followed referrals even if the fetch worked: after the objects from the other server, iteration does not stop at the final
result but waits for more messages. -/
theorem c56_referral_hangs (env : Env V R E) (t : Target R) (pre : List (Msg E)) (items : List (List (Item E R))) (cs : List Wire) (refs : List Str)
    (l : List (Item E R)) (hf : env.follow = true) (hl : env.fetch refs = (l, none)) (h : Pairwise2 (Received env) pre items) :
    let o := iterate env none t (pre ++ [.done 10 cs refs])
    o.yields = items.flatten ++ l ∧ o.ending = .waiting := by
  intro o
  have ho : o = (iterate env none t [.done 10 cs refs]).after items.flatten := Search.iterate_append h t _
  rw [ho]
  simp [iterate, Out.after, hf, hl, rcSuccess, rcNoSuchObject, rcReferral]

/-- C28/C56: a search given a `tag` keyword raises `TagError` at its second entry. -/
theorem c56_tagged_search (env : Env V R E) (t : Target R) (e1 e2 : E) (post : List (Msg E)) (cs : List Wire) :
    iterate env (some false) t (.entry e1 [] :: .entry e2 cs :: post) =
      ⟨[.entry e1 []], .raised .tagError, post, false, t⟩ := by
  simp [iterate, handleResponse, Out.after]

/-! ### C29 -/

/-- C29: when the search ends with success or noSuchObject, `get` decides by the number of results: none, one, more. -/
theorem c29_get (env : Env V R E) (t t' : Target R) (pre post : List (Msg E)) (items : List (List (Item E R))) (code : Nat)
    (cs : List Wire) (refs : List Str) (h : Pairwise2 (Received env) pre items) (hcode : code = 0 ∨ code = 32)
    (hc : handleResponse env.reg t cs = (.ok (), t')) :
    let r := getObj env false none t (pre ++ .done code cs refs :: post)
    (items.flatten.length = 0 → r = some (.error .noResults)) ∧
    (∀ x, items.flatten = [x] → r = some (.ok x)) ∧
    (items.flatten.length > 1 → r = some (.error .multipleResults)) := by
  intro r
  have hne : code = 10 → env.follow = false := by intro h; omega
  obtain ⟨h1, _, _, h4, _, _⟩ := c56_iterates env t t' pre post items code cs refs h hne hc
  have hr : r = some (getOneResult items.flatten) := by
    simp only [r, getObj]
    rw [h4 (by omega), h1]
    simp
  rw [hr]
  generalize items.flatten = l
  refine ⟨?_, ?_, ?_⟩
  · intro h; cases l <;> simp_all [getOneResult]
  · rintro x rfl; rfl
  · intro h
    match l, h with
    | [], h => simp at h
    | [x], h => simp at h
    | x :: y :: l, _ => rfl

/-- C29: `exists` is true iff there is a result. -/
theorem c29_exists (env : Env V R E) (t t' : Target R) (pre post : List (Msg E)) (items : List (List (Item E R))) (code : Nat)
    (cs : List Wire) (refs : List Str) (h : Pairwise2 (Received env) pre items) (hcode : code = 0 ∨ code = 32)
    (hc : handleResponse env.reg t cs = (.ok (), t')) :
    exists_ env false none t (pre ++ .done code cs refs :: post) = some (.ok (decide (items.flatten ≠ []))) := by
  obtain ⟨h1, h2, h3⟩ := c29_get env t t' pre post items code cs refs h hcode hc
  unfold exists_
  match hl : items.flatten with
  | [] => rw [h1 (by simp [hl])]; simp
  | [x] => rw [h2 x hl]; simp
  | x :: y :: l => rw [h3 (by simp [hl])]; simp

/-- C29: any other final result (followed referrals apart) is an error for both – `exists` never answers false for a failed search. -/
theorem c29_failed_search (env : Env V R E) (t t' : Target R) (pre post : List (Msg E)) (items : List (List (Item E R))) (code : Nat)
    (cs : List Wire) (refs : List Str) (h : Pairwise2 (Received env) pre items) (hcode : code ≠ 0 ∧ code ≠ 32 ∧ code ≠ 10)
    (hc : handleResponse env.reg t cs = (.ok (), t')) :
    getObj env false none t (pre ++ .done code cs refs :: post) = some (.error .ldapError) ∧
    exists_ env false none t (pre ++ .done code cs refs :: post) = some (.error .ldapError) := by
  obtain ⟨_, _, _, _, h5, _⟩ := c56_iterates env t t' pre post items code cs refs h (fun h => absurd h hcode.2.2) hc
  have : getObj env false none t (pre ++ .done code cs refs :: post) = some (.error .ldapError) := by
    simp [getObj, h5 hcode]
  exact ⟨this, by simp [exists_, this]⟩

/-- C29: on an unbound connection, and while the server has not finished, no verdict is given. -/
theorem c29_no_verdict (env : Env V R E) (t : Target R) (pre : List (Msg E)) (items : List (List (Item E R))) (e : Option Err)
    (h : Pairwise2 (Received env) pre items) :
    getObj env true e t pre = some (.error .unbound) ∧ exists_ env true e t pre = some (.error .unbound) ∧
    getObj env false none t pre = none ∧ exists_ env false none t pre = none := by
  obtain ⟨_, h2, _⟩ := c56_waits env t pre items h
  have : getObj env false none t pre = none := by simp [getObj, h2]
  exact ⟨rfl, rfl, this, by simp [exists_, this]⟩

/-- C29 counts references as entries: with references not fetched, a search that found no entry but was pointed elsewhere makes `get` return the
reference handle and `exists` answer true. -/
theorem c29_reference_counts (env : Env V R E) (t : Target R) (uris : List Str) (hf : env.fetchRefs = false) :
    getObj env false none t [.ref uris [], .done 0 [] []] = some (.ok (.ref uris [])) ∧
    exists_ env false none t [.ref uris [], .done 0 [] []] = some (.ok true) := by
  simp [getObj, exists_, iterate, hf, handleResponse, Out.after, getOneResult, rcSuccess]

/-! ### C55, C64 -/

/-- C55: compare returns True iff the server answered compareTrue (6) to the one request sent, False iff compareFalse (5) – given that the response controls can be
processed –, and raises LDAPError for every other result code. -/
theorem c55_verdict (reg : Reg V R) (own : List Str) (code : Nat) (cs : List Wire) (t : Target R)
    (hc : handleResponse reg ⟨own, []⟩ cs = (.ok (), t)) :
    let r := compareOp reg own false (.ok ()) (.ok ()) (some ⟨true, code, cs⟩)
    r.2 = 1 ∧ (code = 6 → r.1 = some (.ok (true, t.got))) ∧ (code = 5 → r.1 = some (.ok (false, t.got))) ∧
    (code ≠ 6 ∧ code ≠ 5 → r.1 = some (.error .ldapError)) := by
  simp only [compareOp, rcCompareTrue, rcCompareFalse, hc, Bool.not_true, Bool.false_eq_true, if_false]
  by_cases h6 : code = 6
  · simp [h6]
  · by_cases h5 : code = 5
    · simp [h5]
    · simp [h5, h6]

/-- C55: in every case – closed connection, bad keywords, failure to send, an answer of another kind, bad response controls – a verdict is only returned for an
answer with one of the two codes, and it is the one the code stands for; at most one request is sent, and none unless the connection is usable and the keywords are. -/
theorem c55_only_verdicts (reg : Reg V R) (own : List Str) (unbound : Bool) (ctrls send : Except Err Unit) (resp : Option Resp)
    (b : Bool) (a : PDict Str R) (h : (compareOp reg own unbound ctrls send resp).1 = some (.ok (b, a))) :
    unbound = false ∧ ctrls = .ok () ∧ send = .ok () ∧ ∃ r, resp = some r ∧ r.expected = true ∧ r.code = (if b then 6 else 5) := by
  unfold compareOp at h
  cases unbound with
  | true => simp at h
  | false =>
    cases ctrls with
    | error e => simp at h
    | ok _ =>
      cases send with
      | error e => simp at h
      | ok _ =>
        cases resp with
        | none => simp at h
        | some r =>
          simp only [rcCompareTrue, rcCompareFalse] at h
          cases he : r.expected with
          | false => simp [he] at h
          | true =>
            refine ⟨rfl, rfl, rfl, r, rfl, he, ?_⟩
            simp only [he, Bool.not_true, Bool.false_eq_true, if_false] at h
            split at h
            · rename_i h6
              split at h
              · simp at h
              · simp at h; rw [← h.1]; simp [h6]
            · split at h
              · rename_i h5
                split at h
                · simp at h
                · simp at h; rw [h.1]; simp [h5]
              · simp at h

/-- C64: a write operation (modify, delete, rename, bind, add) reports success iff the server's answer is of the right kind, has the result code success and
its response controls can be processed; every other result code raises LDAPError. -/
theorem c64_success_iff (reg : Reg V R) (own : List Str) (resp : Option Resp) (a : PDict Str R) :
    successResult reg own resp = some (.ok a) ↔
      ∃ cs t, resp = some ⟨true, 0, cs⟩ ∧ handleResponse reg ⟨own, []⟩ cs = (.ok (), t) ∧ t.got = a := by
  constructor
  · intro h
    unfold successResult at h
    cases resp with
    | none => simp at h
    | some r =>
      obtain ⟨x, c, cs⟩ := r
      cases x with
      | false => simp at h
      | true =>
        simp only [Bool.not_true, Bool.false_eq_true, if_false, rcSuccess] at h
        by_cases hc : c = 0
        · subst hc
          rw [if_pos rfl] at h
          cases ht : handleResponse reg ⟨own, []⟩ cs with
          | mk x t =>
            rw [ht] at h
            cases x with
            | error e => simp at h
            | ok u =>
              simp at h
              exact ⟨cs, t, rfl, ht, h⟩
        · simp [hc] at h
  · rintro ⟨cs, t, rfl, h, rfl⟩
    simp [successResult, rcSuccess, h]

theorem c64_failure (reg : Reg V R) (own : List Str) (code : Nat) (cs : List Wire) (h : code ≠ 0) :
    successResult reg own (some ⟨true, code, cs⟩) = some (.error .ldapError) := by
  simp [successResult, rcSuccess, h]

/-! ### C63 -/

/-- C63: iterating an extended response yields the intermediate responses in order, then the final one, and stops without reading further; when success is
required, a final response with any other code raises instead of being yielded. -/
theorem c63_iter (req : Bool) (ps : List Nat) (code p : Nat) (post : List XMsg) :
    XHandle.iter req (ps.map .intermediate ++ .final code p :: post) =
      if req = true ∧ code ≠ 0 then (ps, .raised .ldapError, post) else (ps ++ [p], .stop, post) := by
  induction ps with
  | nil =>
    simp only [List.map_nil, List.nil_append, XHandle.iter, XHandle.recv, rcSuccess]
    by_cases h : req = true ∧ code ≠ 0
    · simp [h.1, h.2]
    · cases req
      · simp
      · have : code = 0 := by simp at h; exact h
        simp [this]
  | cons q ps ih =>
    simp only [List.map_cons, List.cons_append, XHandle.iter, XHandle.recv, Bool.false_eq_true, if_false]
    rw [ih]
    split <;> rfl

/-- C63: without a final response, iteration waits after the intermediate ones. -/
theorem c63_waits (req : Bool) (ps : List Nat) : XHandle.iter req (ps.map .intermediate) = (ps, .waiting, []) := by
  induction ps with
  | nil => rfl
  | cons q ps ih =>
    simp only [List.map_cons, XHandle.iter, XHandle.recv, Bool.false_eq_true, if_false]
    rw [ih]

/-! ### C62 -/

/-- what can happen to a handle -/
inductive HOp where
  | abandon (send : Except Err Unit)
  | exit (exc : Option Err) (send : Except Err Unit)

/-- one such event -/
def hStep (h : Handle) : HOp → Handle
  | .abandon s => (h.abandon s).2
  | .exit e s => (h.exit e s).2

/-- C62 (the part that holds): once abandoned – or once done – a handle sends nothing more, whatever happens to it; at most one abandon request is ever sent. -/
theorem c62_at_most_one_partial (ops : List HOp) : (ops.foldl hStep {}).sent ≤ 1 ∧
    ((ops.foldl hStep {}).abandoned = true ↔ (ops.foldl hStep {}).sent = 1) := by
  have key : ∀ (ops : List HOp) (h : Handle), (h.sent ≤ 1 ∧ (h.abandoned = true ↔ h.sent = 1)) →
      ((ops.foldl hStep h).sent ≤ 1 ∧ ((ops.foldl hStep h).abandoned = true ↔ (ops.foldl hStep h).sent = 1)) := by
    intro ops
    induction ops with
    | nil => intro h hh; exact hh
    | cons op ops ih =>
      intro h hh
      apply ih
      have hab : ∀ s, ((h.abandon s).2.sent ≤ 1 ∧ ((h.abandon s).2.abandoned = true ↔ (h.abandon s).2.sent = 1)) := by
        intro s
        unfold Handle.abandon
        split
        · exact hh
        · rename_i hna
          cases s with
          | error e => exact hh
          | ok u =>
            simp only []
            have : h.sent ≠ 1 := fun hc => hna (hh.2.mpr hc)
            constructor
            · omega
            · simp; omega
      cases op with
      | abandon s => exact hab s
      | exit e s =>
        simp only [hStep, Handle.exit]
        split
        · exact hh
        · have := hab s
          split
          · rename_i heq; rw [heq] at this; exact this
          · rename_i heq; rw [heq] at this; exact this
  exact key ops {} (by decide)

/-- C62: after abandoning, iterating the handle yields nothing. -/
theorem c62_abandoned_yields_nothing (env : Env V R E) (h : Handle) (t : Target R) (ms : List (Msg E)) (ha : h.abandoned = true) :
    (iterHandle env h t ms).yields = [] ∧ (iterHandle env h t ms).ending = .stop := by
  simp [iterHandle, ha]

/-- C62 is false: abandoning an operation that is in progress sends the request and then raises `AttributeError`; leaving the `with` block before the end does the
same, whatever was in flight, so that even `Abandon` is not suppressed and the block is never left cleanly. -/
theorem c62_abandon_raises (h : Handle) (ha : h.abandoned = false) (hd : h.done = false) (exc : Option Err) :
    h.abandon (.ok ()) = (.error .attributeError, { h with abandoned := true, sent := h.sent + 1 }) ∧
    (h.exit exc (.ok ())).1 = some .attributeError := by
  simp [Handle.abandon, Handle.exit, ha, hd]

/-- C62: leaving the block after the final result was read is clean: `Abandon` is suppressed, other exceptions go through, nothing is sent. -/
theorem c62_exit_done (h : Handle) (hd : h.done = true) (exc : Option Err) (send : Except Err Unit) :
    h.exit exc send = (if exc = some .abandon then none else exc, h) := by
  simp [Handle.exit, hd]

/-! ### The statements are not vacuous -/

def exEnv (fetch follow : Bool) : Env Nat Nat Nat :=
  { reg := {}, fetchRefs := fetch, follow := follow, objOwn := [], refOwn := [], fetch := fetchUris (fun _ => .ok ()) (fun _ => .ok ()) }

/-- the messages of a small search -/
theorem Search.exReceived : Pairwise2 (Received (exEnv false false)) [.entry 1 [], .ref [str "ldap://x"] [], .entry 2 []]
    [[.entry 1 []], [.ref [str "ldap://x"] []], [.entry 2 []]] :=
  .cons (.entry 1 [] [] [] rfl) (.cons (.ref _ [] [] [] rfl rfl) (.cons (.entry 2 [] [] [] rfl) .nil))

example : (iterate (exEnv false false) none ⟨[], []⟩ [.entry 1 [], .ref [str "ldap://x"] [], .entry 2 [], .done 32 [] [], .entry 9 []]).yields =
    [.entry 1 [], .ref [str "ldap://x"] [], .entry 2 []] := by decide

/-- with the defaults, the same search raises `OSError` at the reference -/
example : (iterate (exEnv true true) none ⟨[], []⟩ [.entry 1 [], .ref [str "ldap://x"] [], .entry 2 [], .done 32 [] []]).ending = .raised .osError := by
  decide

example : getObj (exEnv false false) false none ⟨[], []⟩ [.entry 1 [], .done 0 [] []] = some (.ok (.entry 1 [])) := by decide

end Laurelin.Props
