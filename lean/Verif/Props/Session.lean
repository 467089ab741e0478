import Verif.Props.WireTyped
import Verif.Spec.Session
/-!
# C84 one operation after the other, from arguments to octets and from octets to results
-/
namespace Laurelin.Props
open Laurelin Codec Asn1 Rfc4511 Wire WireP Received Session Net Spec.SessionS
namespace SessionP

section
variable {B M : Type}

/-- the queues of this ID and the later ones, and the rest of the socket, are as they were -/
def Same (want : Nat) (s s' : Sock B M) : Prop := s'.chunks = s.chunks ∧ s'.abandoned = s.abandoned ∧ ∀ j, want ≤ j → s'.queues j = s.queues j

theorem same_enqueue (want : Nat) (s : Sock B M) (i : Nat) (m : M) (h : i < want) : Same want s (s.enqueue i m) := by
  refine ⟨enqueue_chunks s i m, enqueue_abandoned s i m, fun j hj => ?_⟩
  unfold Sock.enqueue
  split <;> simp only [if_neg (show ¬ j = i by omega)]

theorem same_trans {want : Nat} {s t u : Sock B M} (h : Same want s t) (h' : Same want t u) : Same want s u :=
  ⟨h'.1.trans h.1, h'.2.1.trans h.2.1, fun j hj => (h'.2.2 j hj).trans (h.2.2 j hj)⟩

theorem decodeLoop_last (C : Codec B M) (want : Nat) (ans : M) (ha : C.mid ans = want) (n : Nat) (raw tail : List B) (late : List M) (s : Sock B M) (hn : raw.length ≤ n)
    (hb : raw ++ tail = (late ++ [ans]).flatMap C.enc) (hl : ∀ m ∈ late, C.mid m ≠ 0 ∧ C.mid m < want) :
    ∃ s', Same want s s' ∧ ((tail = [] ∧ decodeLoop C want n raw s = .yields ans [] s') ∨
      (tail ≠ [] ∧ ∃ raw' late', (decodeLoop C want n raw s = .underrun raw' s' ∨ (raw' = [] ∧ decodeLoop C want n raw s = .drained s')) ∧
        raw' ++ tail = (late' ++ [ans]).flatMap C.enc ∧ ∀ m ∈ late', C.mid m ≠ 0 ∧ C.mid m < want)) := by
  have hne : ∀ (tail : List B) (late : List M), tail = (late ++ [ans]).flatMap C.enc → tail ≠ [] := by
    rintro _ late rfl h
    exact C.enc_ne ans (by simpa using (List.flatMap_eq_nil_iff.1 h) ans (by simp))
  induction n generalizing raw late s with
  | zero =>
    obtain rfl : raw = [] := List.length_eq_zero_iff.mp (by omega)
    exact ⟨s, ⟨rfl, rfl, fun _ _ => rfl⟩, .inr ⟨hne _ late hb, [], late, .inr ⟨rfl, by simp [decodeLoop]⟩, hb, hl⟩⟩
  | succ n ih =>
    cases raw with
    | nil => exact ⟨s, ⟨rfl, rfl, fun _ _ => rfl⟩, .inr ⟨hne _ late hb, [], late, .inr ⟨rfl, by simp [decodeLoop]⟩, hb, hl⟩⟩
    | cons b raw =>
      obtain ⟨m, more, hm⟩ : ∃ m more, late ++ [ans] = m :: more := by cases late <;> exact ⟨_, _, rfl⟩
      have hb' := hb
      rw [hm, List.flatMap_cons] at hb
      have hcase : (∃ c p, C.enc m = (b :: raw) ++ c :: p ∧ tail ≠ []) ∨ ∃ p, b :: raw = C.enc m ++ p ∧ p ++ tail = more.flatMap C.enc := by
        rcases List.append_eq_append_iff.mp hb with ⟨p, hp1, hp2⟩ | ⟨p, hp1, hp2⟩
        · cases p with
          | nil => exact .inr ⟨[], by simpa using hp1.symm, by simpa using hp2⟩
          | cons c p => exact .inl ⟨c, p, hp1, by rw [hp2]; simp⟩
        · exact .inr ⟨p, hp1, hp2.symm⟩
      rcases hcase with ⟨c, p, he, ht⟩ | ⟨p, hp1, hp2⟩
      · have hd : C.dec (b :: raw) = none := C.dec_short m _ (c :: p) (by simp) he
        exact ⟨s, ⟨rfl, rfl, fun _ _ => rfl⟩, .inr ⟨ht, b :: raw, late, .inl (by simp [decodeLoop, hd]), hb', hl⟩⟩
      · have hd : C.dec (b :: raw) = some (m, p) := by rw [hp1]; exact C.dec_enc m p
        cases late with
        | nil =>
          cases hm
          simp only [List.flatMap_nil, List.append_eq_nil_iff] at hp2
          obtain ⟨rfl, rfl⟩ := hp2
          exact ⟨s, ⟨rfl, rfl, fun _ _ => rfl⟩, .inl ⟨rfl, by simp [decodeLoop, hd, ha]⟩⟩
        | cons l late =>
          cases hm
          obtain ⟨h0, h1⟩ := hl m (by simp)
          have hlen : p.length ≤ n := by
            have h2 := congrArg List.length hp1
            have h3 : 0 < (C.enc m).length := by
              rcases Nat.eq_zero_or_pos (C.enc m).length with h | h
              · exact absurd (List.length_eq_zero_iff.1 h) (C.enc_ne m)
              · exact h
            simp only [List.length_append, List.length_cons] at h2 hn
            omega
          obtain ⟨s', h2, h3⟩ := ih p late (s.enqueue (C.mid m) m) hlen hp2 (fun m hm => hl m (List.mem_cons_of_mem _ hm))
          refine ⟨s', same_trans (same_enqueue want s _ m h1) h2, ?_⟩
          have hw : C.mid m ≠ want := by omega
          have : decodeLoop C want (n + 1) (b :: raw) s = decodeLoop C want n p (s.enqueue (C.mid m) m) := by
            simp [decodeLoop, hd, hw, h0]
          rw [this]
          exact h3

theorem outer_last (C : Codec B M) (want : Nat) (ans : M) (ha : C.mid ans = want) (cs : List (List B)) : ∀ (flush : Bool) (raw : List B) (late : List M) (s : Sock B M),
    (∀ c ∈ cs, c ≠ []) → cs ≠ [] → raw ++ cs.flatten = (late ++ [ans]).flatMap C.enc → (∀ m ∈ late, C.mid m ≠ 0 ∧ C.mid m < want) → s.queues want = none → s.abandoned = [] →
    ∃ s', (outer C want flush raw s cs).1 = .yields ans ∧ (outer C want flush raw s cs).2.2 = s' ∧ s'.chunks = [] ∧ s'.abandoned = [] ∧ ∀ j, want ≤ j → s'.queues j = s.queues j := by
  induction cs with
  | nil => intro _ _ _ _ _ h; exact absurd rfl h
  | cons c cs ih =>
    intro flush raw late s hne _ hb hl hq hab
    have hpop : (if flush then s.pop want else none) = none := by
      split
      · simp [Sock.pop, hq]
      · rfl
    simp only [List.flatten_cons, ← List.append_assoc] at hb
    obtain ⟨s1, ⟨h1, h2, h3⟩, h4⟩ := decodeLoop_last C want ans ha (raw ++ c).length (raw ++ c) cs.flatten late s (Nat.le_refl _) hb hl
    have hcs : cs.flatten = [] → cs = [] := by
      intro h
      cases cs with
      | nil => rfl
      | cons d ds => exact absurd (List.flatten_eq_nil_iff.1 h d (by simp)) (hne d (by simp))
    rcases h4 with ⟨ht, hd⟩ | ⟨ht, raw', late', hd, hb', hl'⟩
    · have := hcs ht
      subst this
      simp only [outer, hpop, hab, List.not_mem_nil, if_false, hd]
      exact ⟨_, trivial, rfl, rfl, by rw [← hab, ← h2], h3⟩
    · have hcs' : cs ≠ [] := by rintro rfl; exact ht rfl
      have go := fun fl => ih fl raw' late' s1 (fun x hx => hne x (List.mem_cons_of_mem _ hx)) hcs' hb' hl' (by rw [h3 want (Nat.le_refl _), hq]) (by rw [h2, hab])
      rcases hd with hd | ⟨hr, hd⟩
      · obtain ⟨s', g1, g2, g3, g4, g5⟩ := go false
        refine ⟨s', ?_, ?_, g3, g4, fun j hj => (g5 j hj).trans (h3 j hj)⟩
        · simp only [outer, hpop, hab, List.not_mem_nil, if_false, hd]; exact g1
        · simp only [outer, hpop, hab, List.not_mem_nil, if_false, hd]; exact g2
      · subst hr
        obtain ⟨s', g1, g2, g3, g4, g5⟩ := go true
        refine ⟨s', ?_, ?_, g3, g4, fun j hj => (g5 j hj).trans (h3 j hj)⟩
        · simp only [outer, hpop, hab, List.not_mem_nil, if_false, hd]; exact g1
        · simp only [outer, hpop, hab, List.not_mem_nil, if_false, hd]; exact g2

/-- `recv_one` when the answer is the last thing that arrives -/
theorem recvOne_last (C : Codec B M) (want : Nat) (ans : M) (ha : C.mid ans = want) (late : List M) (s : Sock B M) (hne : ∀ c ∈ s.chunks, c ≠ [])
    (hb : s.chunks.flatten = (late ++ [ans]).flatMap C.enc) (hl : ∀ m ∈ late, C.mid m ≠ 0 ∧ C.mid m < want) (hq : s.queues want = none) (hab : s.abandoned = []) :
    ∃ s', recvOne C want s = (.yields ans, s') ∧ s'.chunks = [] ∧ s'.abandoned = [] ∧ ∀ j, want ≤ j → s'.queues j = s.queues j := by
  have hcs : s.chunks ≠ [] := by
    intro h
    rw [h] at hb
    exact C.enc_ne ans (by simpa using (List.flatMap_eq_nil_iff.1 hb.symm) ans (by simp))
  obtain ⟨s', g1, g2, g3⟩ := outer_last C want ans ha s.chunks true [] late s hne hcs (by simpa using hb) hl hq hab
  refine ⟨s', ?_, g3⟩
  rw [recvOne]
  simp only [Net.next]
  rw [← g1, ← g2]

end

theorem string_of (o : Option Bytes) (s : Str) (hs : o.getD [] = utf8Enc s) : (match o.map oct with
    | none => (Except.ok [] : Except Err Str)
    | some w => match textOf w with
      | some s => .ok s
      | none => .error .ldapUnicode) = .ok s := by
  cases o with
  | none =>
    have : s = [] := utf8_injective s [] (by rw [← hs]; rfl)
    rw [this]; rfl
  | some b =>
    have hb : b = utf8Enc s := hs
    rw [hb]
    show (match utf8Dec (utf8Enc s) with
      | some s => (Except.ok s : Except Err Str)
      | none => .error .ldapUnicode) = .ok s
    rw [utf8_round_trip]

theorem intermediate_value (m : Spec.Wire.Message) (n v : Option Bytes) (ho : m.op = .intermediateResponse n v) (s : Str) (hs : v.getD [] = utf8Enc s) :
    extendedValue (messageV m) = .ok s := by
  have hu := unpack_view m (str "intermediateResponse") (.seq (opt (n.map oct) (opt (v.map oct) .nil))) (by rw [ho]; rfl)
  rw [if_pos (by rw [ho]; rfl)] at hu
  have hf : field intermediateComps (str "responseValue") (.seq (opt (n.map oct) (opt (v.map oct) .nil))) = v.map oct := by cases n <;> cases v <;> rfl
  rw [extendedValue, hu]
  simp only [stringComponent, hf]
  exact string_of v s hs

theorem extended_value (m : Spec.Wire.Message) (r : Spec.Wire.Result) (n v : Option Bytes) (ho : m.op = .extendedResp r n v) :
    (r.code ≠ 0 → extendedValue (messageV m) = .error .ldapError) ∧ ∀ s, r.code = 0 → v.getD [] = utf8Enc s → extendedValue (messageV m) = .ok s := by
  have hop : opV m.op = .choice m.op.name (resultV r (opt (n.map oct) (opt (v.map oct) .nil))) := by rw [ho]; rfl
  have hu0 := unpack_view m (str "intermediateResponse") _ hop
  rw [if_neg (by rw [ho]; show ¬ (str "extendedResp" = str "intermediateResponse"); decide)] at hu0
  have hu := unpack_view m (str "extendedResp") _ hop
  rw [if_pos (by rw [ho]; rfl)] at hu
  have hf : field extendedRespComps (str "responseValue") (resultV r (opt (n.map oct) (opt (v.map oct) .nil))) = v.map oct := by
    cases r with | mk a b c d => cases n <;> cases v <;> cases d <;> rfl
  have hc : intField extendedRespComps (str "resultCode") (resultV r (opt (n.map oct) (opt (v.map oct) .nil))) = some r.code := rfl
  rw [extendedValue, hu0]
  simp only [hu, hc, stringComponent, hf]
  constructor
  · intro h; rw [if_neg h]
  · intro s h hs
    rw [if_pos h]
    exact string_of v s hs

theorem extended_other (m : Spec.Wire.Message) (h1 : m.op.name ≠ str "extendedResp") (h2 : m.op.name ≠ str "intermediateResponse") : extendedValue (messageV m) = .error .unexpectedResponse := by
  obtain ⟨v, hs⟩ := op_shape m.op
  have u1 := unpack_view m (str "intermediateResponse") v hs
  rw [if_neg h2] at u1
  have u2 := unpack_view m (str "extendedResp") v hs
  rw [if_neg h1] at u2
  rw [extendedValue, u1]
  simp only [u2]

theorem result_read (m : Spec.Wire.Message) (r : Spec.Wire.Result) (hr : m.op.result? = some r) (hc : m.controls = none) :
    readResult m.op.name (messageV m) = some (some (codeOf r.code, [])) := by
  have hb : ∃ more, opV m.op = .choice m.op.name (resultV r more) := by
    cases ho : m.op <;> rw [ho] at hr <;> simp only [Spec.Wire.Op.result?, Option.some.injEq, reduceCtorEq] at hr <;> subst hr <;> exact ⟨_, rfl⟩
  obtain ⟨more, hb⟩ := hb
  have hu := unpack_view m m.op.name _ hb
  rw [if_pos rfl] at hu
  have hx : resultCode (resultComps .nil) (resultV r more) = some (codeOf r.code) := rfl
  have hcs := response_controls m none (by rw [hc]; rfl) (by simp)
  rw [readResult.eq_def, hu]
  simp only [hx, hcs, Option.getD_none]

theorem result_other (m : Spec.Wire.Message) (n : Str) (hn : m.op.name ≠ n) : readResult n (messageV m) = some none := by
  obtain ⟨v, hs⟩ := op_shape m.op
  have hu := unpack_view m n v hs
  rw [if_neg hn] at hu
  rw [readResult.eq_def, hu]

theorem code_iff (z : Int) (n : Nat) (hn : n ≠ 1) : codeOf z = n ↔ z = n := by
  unfold codeOf
  split <;> omega

variable {V R : Type}

/-- how a call ends that is neither a comparison nor an extended operation -/
theorem finish_plain (reg : Controls.Reg V R) (own : List Str) (c : Call) (v : Val) (hc : ∀ d a x, c ≠ .compare d a x) (he : ∀ o x, c ≠ .extended o x) :
    (∀ code, readResult (waitsFor c) v = some (some (code, [])) → finish reg own c v = if code = 0 then .returns .done else .raises .ldapError) ∧
    (readResult (waitsFor c) v = some none → finish reg own c v = .raises .unexpectedResponse) := by
  constructor
  · intro code h
    cases c <;> first | exact absurd rfl (he _ _) | exact absurd rfl (hc _ _ _) | skip
    all_goals
      simp only [finish, h, Search.successResult, Controls.handleResponse, Search.rcSuccess, Bool.not_true, Bool.false_eq_true, if_false]
      by_cases h0 : code = 0
      · simp [h0]
      · simp [h0]
  · intro h
    cases c <;> first | exact absurd rfl (he _ _) | exact absurd rfl (hc _ _ _) | skip
    all_goals simp [finish, h, Search.successResult]

theorem finish_compare (reg : Controls.Reg V R) (own : List Str) (d a x : Str) (v : Val) :
    (∀ code, readResult (str "compareResponse") v = some (some (code, [])) → finish reg own (.compare d a x) v =
      if code = 6 then .returns (.truth true) else if code = 5 then .returns (.truth false) else .raises .ldapError) ∧
    (readResult (str "compareResponse") v = some none → finish reg own (.compare d a x) v = .raises .unexpectedResponse) := by
  constructor
  · intro code h
    simp only [finish, waitsFor, h, Search.compareOp, Controls.handleResponse, Search.rcCompareTrue, Search.rcCompareFalse, Bool.not_true, Bool.false_eq_true, if_false]
    by_cases h6 : code = 6
    · simp [h6]
    · by_cases h5 : code = 5
      · simp [h5]
      · simp [h6, h5]
  · intro h
    simp [finish, waitsFor, h, Search.compareOp]

theorem compare_name (o : Spec.Wire.Op) (h : o.name = str "compareResponse") : ∃ r, o = .compareResponse r := by
  cases o
  case compareResponse r => exact ⟨r, rfl⟩
  all_goals (exfalso; revert h; simp only [Spec.Wire.Op.name]; decide)

theorem extended_name (o : Spec.Wire.Op) (h : o.name = str "extendedResp") : ∃ r n v, o = .extendedResp r n v := by
  cases o
  case extendedResp r n v => exact ⟨r, n, v, rfl⟩
  all_goals (exfalso; revert h; simp only [Spec.Wire.Op.name]; decide)

theorem intermediate_name (o : Spec.Wire.Op) (h : o.name = str "intermediateResponse") : ∃ n v, o = .intermediateResponse n v := by
  cases o
  case intermediateResponse n v => exact ⟨n, v, rfl⟩
  all_goals (exfalso; revert h; simp only [Spec.Wire.Op.name]; decide)

/-- how a call ends, given the message that answers it -/
theorem finish_ends (reg : Controls.Reg V R) (own : List Str) (c : Call) (hs : Single c) (m : Spec.Wire.Message) (hm : m.controls = none) :
    (∀ ret, Succeeds c m.op ret → finish reg own c (messageV m) = .returns ret) ∧ (Fails c m.op → finish reg own c (messageV m) = .raises .ldapError) ∧
    (Odd c m.op → finish reg own c (messageV m) = .raises .unexpectedResponse) := by
  have key : ∀ (_ : ∀ d a x, c ≠ .compare d a x) (_ : ∀ o x, c ≠ .extended o x),
      (∀ r, resultFor c m.op = some r → m.op.name = waitsFor c ∧ m.op.result? = some r) → (resultFor c m.op = none → m.op.name ≠ waitsFor c) →
      (∀ r, resultFor c m.op = some r → finish reg own c (messageV m) = if r.code = 0 then .returns .done else .raises .ldapError) ∧
      (resultFor c m.op = none → finish reg own c (messageV m) = .raises .unexpectedResponse) := by
    intro hc he h1 h2
    obtain ⟨f1, f2⟩ := finish_plain reg own c (messageV m) hc he
    refine ⟨fun r hr => ?_, fun h => f2 (result_other m _ (h2 h))⟩
    obtain ⟨hn, hr'⟩ := h1 r hr
    have := result_read m r hr' hm
    rw [hn] at this
    rw [f1 _ this]
    by_cases hz : r.code = 0
    · rw [if_pos hz, if_pos ((code_iff r.code 0 (by decide)).2 hz)]
    · rw [if_neg hz, if_neg (fun h => hz ((code_iff r.code 0 (by decide)).1 h))]
  have plain : ∀ (_ : ∀ d a x, c ≠ .compare d a x) (_ : ∀ o x, c ≠ .extended o x),
      (∀ r, resultFor c m.op = some r → m.op.name = waitsFor c ∧ m.op.result? = some r) → (resultFor c m.op = none → m.op.name ≠ waitsFor c) →
      (∀ ret, (∃ r, resultFor c m.op = some r ∧ r.code = 0 ∧ ret = .done) → finish reg own c (messageV m) = .returns ret) ∧
      ((∃ r, resultFor c m.op = some r ∧ r.code ≠ 0) → finish reg own c (messageV m) = .raises .ldapError) ∧
      (resultFor c m.op = none → finish reg own c (messageV m) = .raises .unexpectedResponse) := by
    intro hc he h1 h2
    obtain ⟨k1, k2⟩ := key hc he h1 h2
    refine ⟨?_, ?_, k2⟩
    · rintro _ ⟨r, hr, hz, rfl⟩
      rw [k1 r hr, if_pos hz]
    · rintro ⟨r, hr, hz⟩
      rw [k1 r hr, if_neg hz]
  cases c with
  | compare d a x =>
    obtain ⟨f1, f2⟩ := finish_compare reg own d a x (messageV m)
    by_cases hr : ∃ r, m.op = .compareResponse r
    · obtain ⟨r, ho⟩ := hr
      have h1 := result_read m r (by rw [ho]; rfl) hm
      rw [show m.op.name = str "compareResponse" by rw [ho]; rfl] at h1
      rw [f1 _ h1, ho]
      have e6 := code_iff r.code 6 (by decide)
      have e5 := code_iff r.code 5 (by decide)
      refine ⟨fun ret h => ?_, fun h => ?_, fun h => ?_⟩
      · rcases h with ⟨hz, rfl⟩ | ⟨hz, rfl⟩
        · rw [if_pos (e6.2 hz)]
        · rw [if_neg (fun h => by have := e6.1 h; omega), if_pos (e5.2 hz)]
      · rw [if_neg (fun g => h.1 (e6.1 g)), if_neg (fun g => h.2 (e5.1 g))]
      · exact absurd h.1 nofun
    · have hn : m.op.name ≠ str "compareResponse" := fun h => hr (compare_name _ h)
      have hu := f2 (result_other m _ hn)
      revert hr hu
      generalize finish reg own (.compare d a x) (messageV m) = out
      generalize m.op = op
      intro hr hu
      refine ⟨fun ret h => ?_, fun h => ?_, fun _ => hu⟩
      · cases op
        case compareResponse r => exact (hr ⟨_, rfl⟩).elim
        all_goals (obtain ⟨_, h, _⟩ := h; cases h)
      · cases op
        case compareResponse r => exact (hr ⟨_, rfl⟩).elim
        all_goals (obtain ⟨_, h, _⟩ := h; cases h)
  | extended o x =>
    by_cases hr : ∃ r n v, m.op = .extendedResp r n v
    · obtain ⟨r, n, v, ho⟩ := hr
      obtain ⟨f1, f2⟩ := extended_value m r n v ho
      rw [ho]
      refine ⟨fun ret h => ?_, fun h => ?_, fun h => ?_⟩
      · obtain ⟨hz, s, hv, rfl⟩ := h
        rw [finish, f2 s hz hv]
      · obtain ⟨_, h, hz⟩ := h
        cases h
        rw [finish, f1 hz]
      · exact absurd h.1 nofun
    · have hn : m.op.name ≠ str "extendedResp" := fun h => hr (extended_name _ h)
      have hu : Odd (.extended o x) m.op → finish reg own (.extended o x) (messageV m) = .raises .unexpectedResponse := by
        intro h
        rw [finish, extended_other m hn (fun hi => by
          obtain ⟨n, v, hi⟩ := intermediate_name _ hi
          exact h.2 _ ⟨n, v, rfl⟩ hi)]
      revert hr hu
      generalize finish reg own (.extended o x) (messageV m) = out
      generalize m.op = op
      intro hr hu
      refine ⟨fun ret h => ?_, fun h => ?_, hu⟩
      · cases op
        case extendedResp r n v => exact (hr ⟨_, _, _, rfl⟩).elim
        all_goals (obtain ⟨_, h, _⟩ := h; cases h)
      · cases op
        case extendedResp r n v => exact (hr ⟨_, _, _, rfl⟩).elim
        all_goals (obtain ⟨_, h, _⟩ := h; cases h)
  | simpleBind u p =>
    have := plain nofun nofun
      (by intro r h; generalize m.op = op at h; cases op <;> cases h <;> exact ⟨rfl, rfl⟩)
      (by intro h; generalize m.op = op at h; cases op <;> first | (cases h; done) | (simp only [Spec.Wire.Op.name, waitsFor, ne_eq]; decide))
    exact ⟨this.1, this.2.1, fun h => this.2.2 h.1⟩
  | add d l =>
    have := plain nofun nofun
      (by intro r h; generalize m.op = op at h; cases op <;> cases h <;> exact ⟨rfl, rfl⟩)
      (by intro h; generalize m.op = op at h; cases op <;> first | (cases h; done) | (simp only [Spec.Wire.Op.name, waitsFor, ne_eq]; decide))
    exact ⟨this.1, this.2.1, fun h => this.2.2 h.1⟩
  | delete d =>
    have := plain nofun nofun
      (by intro r h; generalize m.op = op at h; cases op <;> cases h <;> exact ⟨rfl, rfl⟩)
      (by intro h; generalize m.op = op at h; cases op <;> first | (cases h; done) | (simp only [Spec.Wire.Op.name, waitsFor, ne_eq]; decide))
    exact ⟨this.1, this.2.1, fun h => this.2.2 h.1⟩
  | modDn q =>
    have := plain nofun nofun
      (by intro r h; generalize m.op = op at h; cases op <;> cases h <;> exact ⟨rfl, rfl⟩)
      (by intro h; generalize m.op = op at h; cases op <;> first | (cases h; done) | (simp only [Spec.Wire.Op.name, waitsFor, ne_eq]; decide))
    exact ⟨this.1, this.2.1, fun h => this.2.2 h.1⟩
  | modify q =>
    have := plain nofun nofun
      (by intro r h; generalize m.op = op at h; cases op <;> cases h <;> exact ⟨rfl, rfl⟩)
      (by intro h; generalize m.op = op at h; cases op <;> first | (cases h; done) | (simp only [Spec.Wire.Op.name, waitsFor, ne_eq]; decide))
    exact ⟨this.1, this.2.1, fun h => this.2.2 h.1⟩
  | _ => exact hs.elim

/-- nothing is left over from earlier operations -/
def Ready (st : St Decoded) : Prop := 0 < st.next ∧ st.sock.chunks = [] ∧ st.sock.abandoned = [] ∧ ∀ j, st.next ≤ j → st.sock.queues j = none

theorem ready_init : Ready St.init := ⟨by decide, rfl, rfl, fun _ _ => rfl⟩

theorem request_step (reg : Controls.Reg V R) (own : List Str) (st : St Decoded) (hr : Ready st) (x : Exchange) (hx : x.Ok st.next) :
    ∃ bs st', request codec (fun d => d.1.1) reg own st x.call x.ctrls x.pieces = ((some bs, finish reg own x.call (messageV x.answer.1)), st') ∧ st'.next = st.next + 1 ∧ Ready st' ∧
      send st.next x.call.op x.ctrls = some bs ∧
      ∀ o, Spec.Wire.asks x.call = some o → ∀ b', (Spec.Wire.message st.next o x.ctrls).enc Spec.Wire.x690 b' → bs.length ≤ b'.length := by
  obtain ⟨h0, hc, hab, hq⟩ := hr
  obtain ⟨o, b, ho, hv, hb⟩ := hx.sendable
  have hoids : oidsOk x.call := by
    have := hx.oid
    cases h : x.call <;> first | exact trivial | (rw [h] at this; exact this _ _ rfl)
  obtain ⟨bs, hsend, hmin⟩ := c79_shortest st.next x.call x.ctrls o ho hoids hx.oids hv b hb
  obtain ⟨a1, a2, a3, a4⟩ := hx.answer
  obtain ⟨ds, hds⟩ := decoded_exists x.late (fun p hp => ⟨(hx.late p hp).1, (hx.late p hp).2.2.2⟩)
  let ans : Decoded := ⟨(messageV x.answer.1, x.answer.2), [], recv_ok x.answer.1 a1 x.answer.2 a4 []⟩
  have hmid : codec.mid ans = st.next := by rw [decoded_mid x.answer ans rfl, a2]; rfl
  have hlate : ∀ (l : List (Spec.Wire.Message × Bytes)) (ds : List Decoded), decoded l ds → (∀ p ∈ l, p.1.Valid ∧ p.1.id ≠ 0 ∧ p.1.id < st.next ∧ p.1.enc Spec.Wire.x690 p.2) →
      ∀ d ∈ ds, codec.mid d ≠ 0 ∧ codec.mid d < st.next := by
    intro l
    induction l with
    | nil => intro ds h _ d hd; cases ds with | nil => cases hd | cons d ds => exact h.elim
    | cons p l ih =>
      intro ds h hl d hd
      cases ds with
      | nil => cases hd
      | cons e ds =>
        rcases List.mem_cons.1 hd with rfl | hd
        · obtain ⟨g1, g2, g3, _⟩ := hl p (List.mem_cons_self ..)
          have := g1.1.1
          rw [decoded_mid p d h.1]
          omega
        · exact ih ds h.2 (fun q hq => hl q (List.mem_cons_of_mem _ hq)) d hd
  obtain ⟨s', r1, r2, r3, r4⟩ := recvOne_last codec st.next ans hmid ds { st.sock with chunks := st.sock.chunks ++ x.pieces } (by
      intro c h
      rw [hc] at h
      exact hx.pieces.1 c h) (by
      rw [List.flatMap_append, decoded_enc x.late ds hds]
      show (st.sock.chunks ++ x.pieces).flatten = _
      rw [hc, List.nil_append, hx.pieces.2]
      simp [codec, ans]) (hlate x.late ds hds hx.late) (hq _ (Nat.le_refl _)) hab
  refine ⟨bs, ⟨st.next + 1, s'⟩, ?_, rfl, ⟨by show 0 < st.next + 1; omega, r2, r3, fun j hj => ?_⟩, hsend, ?_⟩
  · rw [request, hsend]
    simp only [r1]
    rfl
  · rw [r4 j (Nat.le_of_succ_le hj)]
    exact hq j (Nat.le_of_succ_le hj)
  · intro o' ho' b' hb'
    rw [ho] at ho'
    cases ho'
    exact hmin b' hb'

theorem run_from (reg : Controls.Reg V R) (own : List Str) (xs : List Exchange) : ∀ (st : St Decoded), Ready st → (∀ (i : Nat) (x : Exchange), xs[i]? = some x → x.Ok (st.next + i)) →
    (run codec (fun d => d.1.1) reg own st (xs.map (fun x => (x.call, x.ctrls, x.pieces)))).length = xs.length ∧
    ∀ (i : Nat) (x : Exchange), xs[i]? = some x → ∃ bs, (run codec (fun d => d.1.1) reg own st (xs.map (fun x => (x.call, x.ctrls, x.pieces))))[i]? =
      some (some bs, finish reg own x.call (messageV x.answer.1)) ∧ send ((st.next + i : Nat) : Int) x.call.op x.ctrls = some bs ∧
      ∀ o, Spec.Wire.asks x.call = some o → ∀ b', (Spec.Wire.message ((st.next + i : Nat) : Int) o x.ctrls).enc Spec.Wire.x690 b' → bs.length ≤ b'.length := by
  induction xs with
  | nil => intro st _ _; exact ⟨rfl, fun i x h => by simp at h⟩
  | cons x xs ih =>
    intro st hr hx
    obtain ⟨bs, st', h1, h2, h3, h4⟩ := request_step reg own st hr x (hx 0 x rfl)
    obtain ⟨g1, g2⟩ := ih st' h3 (fun i y hy => by
      have := hx (i + 1) y (by simpa using hy)
      rw [h2, show st.next + 1 + i = st.next + (i + 1) by omega]
      exact this)
    have hrun : run codec (fun d => d.1.1) reg own st ((x :: xs).map (fun x => (x.call, x.ctrls, x.pieces))) =
        (some bs, finish reg own x.call (messageV x.answer.1)) :: run codec (fun d => d.1.1) reg own st' (xs.map (fun x => (x.call, x.ctrls, x.pieces))) := by
      rw [List.map_cons, run, h1]
    rw [hrun]
    refine ⟨by simp [g1], fun i y hy => ?_⟩
    cases i with
    | zero =>
      simp only [List.getElem?_cons_zero, Option.some.injEq] at hy
      subst hy
      exact ⟨bs, rfl, h4⟩
    | succ i =>
      simp only [List.getElem?_cons_succ] at hy ⊢
      have := g2 i y hy
      rw [h2, show st.next + 1 + i = st.next + (i + 1) by omega] at this
      exact this

end SessionP

/-- **C84.** On a fresh connection, calls are made one after the other; while the n-th one waits, any late messages for earlier ones and then its answer arrive, in any BER encodings and in any
pieces. Then every call writes one message: with ID n, what the call asks for and the given controls, in the shortest encoding of it; and it ends as its own answer says: with success, with an
error, or complaining about a response of another kind. -/
theorem c84_session {V R : Type} (reg : Controls.Reg V R) (own : List Str) (xs : List Exchange) (hx : ∀ (i : Nat) (x : Exchange), xs[i]? = some x → x.Ok (i + 1)) :
    let rs := Session.run codec (fun d => d.1.1) reg own St.init (xs.map (fun x => (x.call, x.ctrls, x.pieces)))
    rs.length = xs.length ∧ ∀ (i : Nat) x, xs[i]? = some x → ∃ bs out o, rs[i]? = some (some bs, out) ∧ Spec.Wire.asks x.call = some o ∧
      (Spec.Wire.message ((i + 1 : Nat) : Int) o x.ctrls).Valid ∧ (Spec.Wire.message ((i + 1 : Nat) : Int) o x.ctrls).enc Spec.Wire.x690 bs ∧
      (∀ b, (Spec.Wire.message ((i + 1 : Nat) : Int) o x.ctrls).enc Spec.Wire.x690 b → bs.length ≤ b.length) ∧
      (∀ ret, Succeeds x.call x.answer.1.op ret → out = .returns ret) ∧ (Fails x.call x.answer.1.op → out = .raises .ldapError) ∧
      (Odd x.call x.answer.1.op → out = .raises .unexpectedResponse) := by
  intro rs
  obtain ⟨h1, h2⟩ := SessionP.run_from reg own xs St.init SessionP.ready_init (fun i x h => by
    have := hx i x h
    show x.Ok (1 + i)
    rw [Nat.add_comm]; exact this)
  refine ⟨h1, fun i x h => ?_⟩
  obtain ⟨bs, g1, g2, g3⟩ := h2 i x h
  rw [show (St.init (M := Decoded)).next + i = i + 1 from Nat.add_comm 1 i] at g2 g3
  obtain ⟨o, k1, k2, _, k4⟩ := c79_sent _ _ _ _ g2
  have hxo := hx i x h
  obtain ⟨f1, f2, f3⟩ := SessionP.finish_ends reg own x.call hxo.single x.answer.1 hxo.answer.2.2.1
  exact ⟨bs, _, o, g1, k1, k2, k4, g3 o k1, f1, f2, f3⟩

namespace SessionP

def deleteX : Exchange where
  call := .delete (str "o")
  ctrls := none
  late := []
  answer := (⟨1, .delResponse ⟨0, [], [], none⟩, none⟩, [0x30, 12, 2, 1, 1, 0x6B, 7, 10, 1, 0, 4, 0, 4, 0])
  pieces := [[0x30, 12, 2, 1, 1, 0x6B, 7, 10, 1, 0, 4], [0, 4, 0]]

/-- a comparison; a second response to the deletion comes first, in the same piece -/
def compareX : Exchange where
  call := .compare (str "o") (str "cn") (str "a")
  ctrls := none
  late := [(⟨1, .delResponse ⟨32, [], [], none⟩, none⟩, [0x30, 12, 2, 1, 1, 0x6B, 7, 10, 1, 32, 4, 0, 4, 0])]
  answer := (⟨2, .compareResponse ⟨6, [], [], none⟩, none⟩, [0x30, 12, 2, 1, 2, 0x6F, 7, 10, 1, 6, 4, 0, 4, 0])
  pieces := [[0x30], [12, 2, 1, 1, 0x6B, 7, 10, 1, 32, 4, 0, 4, 0, 0x30, 12, 2, 1, 2, 0x6F, 7, 10, 1, 6, 4, 0], [4, 0]]

def whoX : Exchange where
  call := .extended (str "1.3.6.1.4.1.4203.1.11.3") none
  ctrls := none
  late := []
  answer := (⟨3, .extendedResp ⟨0, [], [], none⟩ none (some [0x75, 0x3A, 0xC3, 0xA9]), none⟩, [0x30, 18, 2, 1, 3, 0x78, 13, 10, 1, 0, 4, 0, 4, 0, 0x8B, 4, 0x75, 0x3A, 0xC3, 0xA9])
  pieces := [[0x30, 18, 2, 1, 3, 0x78, 13, 10, 1, 0, 4, 0, 4, 0, 0x8B, 4, 0x75, 0x3A, 0xC3, 0xA9]]

theorem ok_of (mid : Nat) (x : Exchange) (o : Spec.Wire.Op) (b : Bytes) (h1 : Single x.call) (h2 : Spec.Wire.asks x.call = some o)
    (h3 : encode filterAlts ldapMessage (messageV (Spec.Wire.message mid o x.ctrls)) = some b) (h4 : ∀ o v, x.call = .extended o v → ∀ c ∈ o, c.toNat < 128) (h5 : x.ctrls = none)
    (h6 : ∀ p ∈ x.late, encode filterAlts ldapMessage (messageV p.1) = some p.2 ∧ p.1.id ≠ 0 ∧ p.1.id < mid)
    (h7 : encode filterAlts ldapMessage (messageV x.answer.1) = some x.answer.2 ∧ x.answer.1.id = mid ∧ x.answer.1.controls = none)
    (h8 : ∀ c ∈ x.pieces, c ≠ []) (h9 : x.pieces.flatten = x.late.flatMap Prod.snd ++ x.answer.2) : x.Ok mid where
  single := h1
  sendable := ⟨o, b, h2, WireR.has_enc _ _ h3⟩
  oid := h4
  oids := by rw [h5]; nofun
  late := fun p hp => by
    obtain ⟨g1, g2, g3⟩ := h6 p hp
    obtain ⟨k1, k2⟩ := WireR.has_enc _ _ g1
    exact ⟨k1, g2, g3, k2⟩
  answer := by
    obtain ⟨k1, k2⟩ := WireR.has_enc _ _ h7.1
    exact ⟨k1, h7.2.1, h7.2.2, k2⟩
  pieces := ⟨h8, h9⟩

theorem sample_ok : ∀ (i : Nat) (x : Exchange), [deleteX, compareX, whoX][i]? = some x → x.Ok (i + 1) := by
  intro i x h
  match i, h with
  | 0, h =>
    cases h
    exact ok_of _ _ _ [0x30, 6, 2, 1, 1, 0x4A, 1, 0x6F] trivial rfl (by decide +kernel) nofun rfl nofun ⟨by decide +kernel, rfl, rfl⟩ (by decide +kernel) (by decide +kernel)
  | 1, h =>
    cases h
    refine ok_of _ _ _ [0x30, 17, 2, 1, 2, 0x6E, 12, 4, 1, 0x6F, 0x30, 7, 4, 2, 0x63, 0x6E, 4, 1, 0x61] trivial rfl (by decide +kernel) nofun rfl ?_ ⟨by decide +kernel, rfl, rfl⟩
      (by decide +kernel) (by decide +kernel)
    intro p hp
    cases List.mem_singleton.1 hp
    exact ⟨by decide +kernel, by decide, by decide⟩
  | 2, h =>
    cases h
    refine ok_of _ _ _ ([0x30, 30, 2, 1, 3, 0x77, 25, 0x80, 23] ++ utf8Enc (str "1.3.6.1.4.1.4203.1.11.3")) trivial rfl (by decide +kernel) ?_ rfl nofun ⟨by decide +kernel, rfl, rfl⟩
      (by decide +kernel) (by decide +kernel)
    intro o v h c hc
    cases h
    revert c
    decide
  | i + 3, h => simp at h

/-- a deletion, a comparison, and "Who am I?" -/
example (reg : Controls.Reg Unit Unit) (own : List Str) :
    (Session.run codec (fun d => d.1.1) reg own St.init ([deleteX, compareX, whoX].map (fun x => (x.call, x.ctrls, x.pieces)))).map Prod.snd =
      [.returns .done, .returns (.truth true), .returns (.text (str "u:é"))] := by
  obtain ⟨h1, h2⟩ := c84_session reg own _ sample_ok
  revert h1 h2
  generalize Session.run codec (fun d => d.1.1) reg own St.init ([deleteX, compareX, whoX].map (fun x => (x.call, x.ctrls, x.pieces))) = rs
  intro h1 h2
  obtain ⟨_, a, _, ha, _, _, _, _, a1, _⟩ := h2 0 deleteX rfl
  obtain ⟨_, b, _, hb, _, _, _, _, b1, _⟩ := h2 1 compareX rfl
  obtain ⟨_, c, _, hc, _, _, _, _, c1, _⟩ := h2 2 whoX rfl
  have ha1 := a1 .done ⟨_, rfl, rfl, rfl⟩
  have hb1 := b1 (.truth true) (.inl ⟨rfl, rfl⟩)
  have hc1 := c1 (.text (str "u:é")) ⟨rfl, str "u:é", by decide, rfl⟩
  match rs, h1 with
  | [x, y, z], _ =>
    cases ha; cases hb; cases hc
    simp [ha1, hb1, hc1]

end SessionP

end Laurelin.Props
