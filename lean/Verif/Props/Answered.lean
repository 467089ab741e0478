import Verif.Props.OverWire
import Verif.Props.WireTyped
import Verif.Spec.Answered
/-!
# C89 no success that was not announced
-/
namespace Laurelin.Props
open Laurelin Codec Asn1 Rfc4511 Spec AnsweredS
namespace AnsweredP

/-! ## Everything yielded or queued was received -/
section
open Net
variable {B M : Type} (C : Codec B M)

/-- a message is somewhere in these octets -/
def In (S : List B) (m : M) : Prop := ∃ pre post, S = pre ++ C.enc m ++ post

/-- what is queued was received and is under its ID -/
def Queued (S : List B) (s : Sock B M) : Prop := ∀ i g q, s.queues i = some (g, q) → ∀ m ∈ q, In C S m ∧ C.mid m = i

theorem In.mono {S T : List B} {m : M} (h : In C S m) : In C (S ++ T) m := by
  obtain ⟨pre, post, rfl⟩ := h
  exact ⟨pre, post ++ T, by simp⟩

theorem queued_mono {S T : List B} {s : Sock B M} (h : Queued C S s) : Queued C (S ++ T) s := fun i g q hq m hm => ⟨(h i g q hq m hm).1.mono, (h i g q hq m hm).2⟩

theorem queued_chunks {S : List B} {s : Sock B M} (cs : List (List B)) (h : Queued C S s) : Queued C S { s with chunks := cs } := h

theorem queued_enqueue {S : List B} {s : Sock B M} (m : M) (hm : In C S m) (h : Queued C S s) : Queued C S (s.enqueue (C.mid m) m) := by
  intro i g q hq x hx
  unfold Sock.enqueue at hq
  split at hq
  · rename_i g' q' hg
    simp only at hq
    split at hq
    · rename_i hi
      cases hq
      rcases List.mem_append.1 hx with hx | hx
      · rw [hi]; exact h _ _ _ hg x hx
      · rw [List.mem_singleton.1 hx]; exact ⟨hm, hi.symm⟩
    · exact h i g q hq x hx
  · simp only at hq
    split at hq
    · rename_i hi
      cases hq
      rw [List.mem_singleton.1 hx]; exact ⟨hm, hi.symm⟩
    · exact h i g q hq x hx

theorem queued_pop {S : List B} {s s' : Sock B M} {i g : Nat} {m : M} (h : Queued C S s) (hp : s.pop i = some (m, g, s')) : In C S m ∧ C.mid m = i ∧ Queued C S s' := by
  unfold Sock.pop at hp
  split at hp
  · rename_i g' m' q hg
    simp only [Option.some.injEq, Prod.mk.injEq] at hp
    obtain ⟨rfl, rfl, rfl⟩ := hp
    obtain ⟨h1, h2⟩ := h _ _ _ hg m' (by simp)
    refine ⟨h1, h2, fun j g2 q2 hq x hx => ?_⟩
    simp only at hq
    split at hq
    · rename_i hj
      split at hq
      · cases hq
      · cases hq
        rw [hj]
        exact h _ _ _ hg x (List.mem_cons_of_mem _ hx)
    · exact h j g2 q2 hq x hx
  · cases hp

variable (hs : ∀ raw m r, C.dec raw = some (m, r) → raw = C.enc m ++ r)

/-- the decode loop takes nothing from the socket -/
theorem decodeLoop_chunks (want : Nat) : ∀ (n : Nat) (raw : List B) (s : Sock B M),
    match decodeLoop C want n raw s with
    | .yields _ _ s' => s'.chunks = s.chunks
    | .unsolicited _ s' => s'.chunks = s.chunks
    | .drained s' => s'.chunks = s.chunks
    | .underrun _ s' => s'.chunks = s.chunks := by
  have enq : ∀ (s : Sock B M) i m, (s.enqueue i m).chunks = s.chunks := by
    intro s i m
    unfold Sock.enqueue
    split <;> rfl
  intro n
  induction n with
  | zero => intro raw s; cases raw <;> rfl
  | succ n ih =>
    intro raw s
    cases raw with
    | nil => rfl
    | cons b r =>
      simp only [decodeLoop]
      cases hd : C.dec (b :: r) with
      | none => rfl
      | some p =>
        obtain ⟨m, raw'⟩ := p
        by_cases h1 : C.mid m = want
        · simp only [if_pos h1]
        · simp only [if_neg h1]
          by_cases h0 : C.mid m = 0
          · simp only [if_pos h0]
          · simp only [if_neg h0]
            have := ih raw' (s.enqueue (C.mid m) m)
            rw [enq] at this
            exact this

/-- these octets, then `rest`, are the end of what was received -/
def Ends (S raw rest : List B) : Prop := ∃ pre, S = pre ++ raw ++ rest

include hs in
theorem decodeLoop_from (S rest : List B) (want : Nat) : ∀ (n : Nat) (raw : List B) (s : Sock B M), Ends S raw rest → Queued C S s →
    match decodeLoop C want n raw s with
    | .yields m raw' s' => In C S m ∧ C.mid m = want ∧ Ends S raw' rest ∧ Queued C S s'
    | .unsolicited _ s' => Queued C S s'
    | .drained s' => Queued C S s'
    | .underrun raw' s' => Ends S raw' rest ∧ Queued C S s' := by
  intro n
  induction n with
  | zero =>
    intro raw s he hq
    cases raw with
    | nil => exact hq
    | cons b r => exact ⟨he, hq⟩
  | succ n ih =>
    intro raw s he hq
    cases raw with
    | nil => exact hq
    | cons b r =>
      simp only [decodeLoop]
      cases hd : C.dec (b :: r) with
      | none => exact ⟨he, hq⟩
      | some p =>
        obtain ⟨m, raw'⟩ := p
        have hraw := hs _ _ _ hd
        obtain ⟨pre, hpre⟩ := he
        rw [hraw] at hpre
        have hin : In C S m := ⟨pre, raw' ++ rest, by rw [hpre]; simp⟩
        have he' : Ends S raw' rest := ⟨pre ++ C.enc m, by rw [hpre]; simp⟩
        by_cases h1 : C.mid m = want
        · simp only [if_pos h1]
          exact ⟨hin, h1, he', hq⟩
        · simp only [if_neg h1]
          by_cases h0 : C.mid m = 0
          · simp only [if_pos h0]
            exact hq
          · simp only [if_neg h0]
            exact ih raw' _ he' (queued_enqueue C m hin hq)

/-- what has not been taken from the socket is the end of what was received -/
def Pending (S : List B) (s : Sock B M) : Prop := Ends S [] s.chunks.flatten

include hs in
theorem outer_from (S : List B) (want : Nat) (cs : List (List B)) : ∀ (flush : Bool) (raw : List B) (s : Sock B M), Ends S raw cs.flatten → Queued C S s →
    let r := outer C want flush raw s cs
    Queued C S r.2.2 ∧ Pending S r.2.2 ∧ (∀ m, r.1 = .yields m → In C S m ∧ C.mid m = want) ∧ (r.2.1.raw ≠ [] → Ends S r.2.1.raw r.2.2.chunks.flatten) := by
  have pend : ∀ {raw rest : List B}, Ends S raw rest → Ends S [] rest := by
    intro raw rest ⟨pre, h⟩
    exact ⟨pre ++ raw, by rw [h]; simp⟩
  induction cs with
  | nil =>
    intro flush raw s he hq r
    simp only [r, outer]
    rcases hp : (if flush then s.pop want else none) with _ | ⟨m, g, s'⟩
    · simp only
      split
      · exact ⟨hq, pend he, nofun, fun h => absurd rfl h⟩
      · exact ⟨hq, pend he, nofun, fun _ => he⟩
    · have hp' : s.pop want = some (m, g, s') := by
        split at hp
        · exact hp
        · cases hp
      obtain ⟨h1, h2, h3⟩ := queued_pop C hq hp'
      exact ⟨h3, pend he, fun m' hm => by cases hm; exact ⟨h1, h2⟩, fun _ => he⟩
  | cons c cs ih =>
    intro flush raw s he hq r
    simp only [r, outer]
    rcases hp : (if flush then s.pop want else none) with _ | ⟨m, g, s'⟩
    · simp only
      split
      · exact ⟨hq, pend he, nofun, fun h => absurd rfl h⟩
      · have he' : Ends S (raw ++ c) cs.flatten := by
          obtain ⟨pre, h⟩ := he
          exact ⟨pre, by rw [h]; simp⟩
        have := decodeLoop_from C hs S cs.flatten want (raw ++ c).length (raw ++ c) s he' hq
        revert this
        cases decodeLoop C want (raw ++ c).length (raw ++ c) s with
        | yields m raw' s' => exact fun ⟨h1, h2, h3, h4⟩ => ⟨h4, pend h3, fun m' hm => by cases hm; exact ⟨h1, h2⟩, fun _ => h3⟩
        | unsolicited m s' => exact fun h4 => ⟨h4, pend he', nofun, fun h => absurd rfl h⟩
        | drained s' => exact fun h4 => ih true [] s' (pend he') h4
        | underrun raw' s' => exact fun ⟨h3, h4⟩ => ih false raw' s' h3 h4
    · have hp' : s.pop want = some (m, g, s') := by
        split at hp
        · exact hp
        · cases hp
      obtain ⟨h1, h2, h3⟩ := queued_pop C hq hp'
      exact ⟨h3, pend he, fun m' hm => by cases hm; exact ⟨h1, h2⟩, fun _ => he⟩

include hs in
theorem next_from (S : List B) (want : Nat) (p : Phase B) (s : Sock B M) (he : Ends S p.raw s.chunks.flatten) (hq : Queued C S s) :
    let r := next C want p s
    Queued C S r.2.2 ∧ Ends S r.2.1.raw r.2.2.chunks.flatten ∧ (∀ m, r.1 = .yields m → In C S m ∧ C.mid m = want) := by
  have out : ∀ flush raw (s : Sock B M), Ends S raw s.chunks.flatten → Queued C S s → 
      Queued C S (outer C want flush raw s s.chunks).2.2 ∧ Ends S (outer C want flush raw s s.chunks).2.1.raw (outer C want flush raw s s.chunks).2.2.chunks.flatten ∧
      (∀ m, (outer C want flush raw s s.chunks).1 = .yields m → In C S m ∧ C.mid m = want) := by
    intro flush raw s he hq
    obtain ⟨h1, h2, h3, h4⟩ := outer_from C hs S want s.chunks flush raw s he hq
    refine ⟨h1, ?_, h3⟩
    by_cases hr : (outer C want flush raw s s.chunks).2.1.raw = []
    · rw [hr]; exact h2
    · exact h4 hr
  intro r
  cases p with
  | finished => exact ⟨hq, he, nofun⟩
  | waiting raw => exact ⟨hq, he, nofun⟩
  | top raw => exact out true raw s he hq
  | flushing g raw =>
    simp only [r, next]
    split
    · split
      · exact out true raw s he hq
      · exact out false raw s he hq
    · exact out false raw s he hq
  | decoding raw =>
    have hd := decodeLoop_from C hs S s.chunks.flatten want raw.length raw s he hq
    have hch := decodeLoop_chunks C want raw.length raw s
    simp only [r, next]
    revert hd
    revert hch
    cases decodeLoop C want raw.length raw s with
    | yields m raw' s' =>
      intro hch ⟨h1, h2, h3, h4⟩
      exact ⟨h4, by rw [show s'.chunks = s.chunks from hch]; exact h3, fun m' hm => by cases hm; exact ⟨h1, h2⟩⟩
    | unsolicited m s' =>
      intro hch h4
      refine ⟨h4, ?_, nofun⟩
      rw [show s'.chunks = s.chunks from hch]
      obtain ⟨pre, h⟩ := he
      exact ⟨pre ++ raw, by rw [h]; simp [Phase.raw]⟩
    | drained s' =>
      intro hch h4
      refine out true [] s' ?_ h4
      rw [show s'.chunks = s.chunks from hch]
      obtain ⟨pre, h⟩ := he
      exact ⟨pre ++ raw, by rw [h]; simp [Phase.raw]⟩
    | underrun raw' s' =>
      intro hch ⟨h3, h4⟩
      exact out false raw' s' (by rw [show s'.chunks = s.chunks from hch]; exact h3) h4

end

/-! ## The decoder as the codec -/
section
open Received Session SessionS WireP Laurelin.Wire

theorem codec_sound (raw : Bytes) (m : Decoded) (r : Bytes) (h : codec.dec raw = some (m, r)) : raw = codec.enc m ++ r := by
  simp only [codec] at h
  split at h
  · rename_i v r' e
    simp only [Option.some.injEq, Prod.mk.injEq] at h
    obtain ⟨rfl, rfl⟩ := h
    obtain ⟨bs, rfl, _⟩ := berDecode_inv _ _ _ _ _ e
    show bs ++ r' = List.take ((bs ++ r').length - r'.length) (bs ++ r') ++ r'
    rw [List.length_append, Nat.add_sub_cancel, List.take_left' rfl]
  all_goals cases h

theorem plain_sub {S pre b post : Bytes} (hp : Spec.Wire.Plain S) (h : S = pre ++ b ++ post) : Spec.Wire.Plain b := by
  refine ⟨?_, fun p q e => hp.2 (pre ++ p) (q ++ post) (by rw [h, e]; simp)⟩
  have := hp.1
  rw [h] at this
  simp only [List.length_append] at this
  omega

/-- a message taken by the receiving loop, other than a bind request, is one -/
theorem among_of {S : Bytes} (hp : Spec.Wire.Plain S) (d : Decoded) (h : In codec S d) (hb : unpack (str "bindRequest") d.1.1 = none) :
    ∃ m : Spec.Wire.Message, AnsweredS.Among S m ∧ d.1.1 = Laurelin.Wire.messageV m ∧ m.id = (codec.mid d : Int) := by
  obtain ⟨pre, post, hS⟩ := h
  obtain ⟨⟨v, bs⟩, r, hr⟩ := d
  obtain ⟨b, h1, _, h2, _⟩ := berDecode_inv _ _ _ _ _ hr
  have hbb : b = bs := List.append_cancel_right h1.symm
  subst hbb
  have h3 : recv (b ++ []) = .ok (v, []) := h2 []
  rw [List.append_nil] at h3
  have hpb := plain_sub hp hS
  obtain ⟨m, bs2, hm, _, e, hE, bs', hx, hr'⟩ := (c80_exactly b [] hpb v hb).1 h3
  rw [List.append_nil] at e
  subst e
  have h5 := recv_ok m hm bs' hx []
  rw [List.append_nil, hr'] at h5
  have hv : v = Laurelin.Wire.messageV m := by cases h5; rfl
  refine ⟨m, ⟨hm, pre, b, post, hS, hE⟩, hv, ?_⟩
  subst hv
  show m.id = (((messageId (Laurelin.Wire.messageV m)).getD 0).toNat : Int)
  have : messageId (Laurelin.Wire.messageV m) = some m.id := rfl
  rw [this]
  simp [Int.toNat_of_nonneg hm.1.1]

variable {V R : Type}

/-- the response read, whatever controls it has -/
theorem result_code (m : Spec.Wire.Message) (n : Str) (code : Nat) (ws : List Controls.Wire) (h : readResult n (Laurelin.Wire.messageV m) = some (some (code, ws))) :
    m.op.name = n ∧ ∀ r, m.op.result? = some r → code = codeOf r.code := by
  by_cases hn : m.op.name = n
  · refine ⟨hn, fun r hr => ?_⟩
    have hb : ∃ more, Laurelin.Wire.opV m.op = .choice m.op.name (Laurelin.Wire.resultV r more) := by
      cases ho : m.op <;> rw [ho] at hr <;> simp only [Spec.Wire.Op.result?, Option.some.injEq, reduceCtorEq] at hr <;> subst hr <;> exact ⟨_, rfl⟩
    obtain ⟨more, hb⟩ := hb
    have hu := unpack_view m n _ hb
    rw [if_pos hn] at hu
    have hx : resultCode (resultComps .nil) (Laurelin.Wire.resultV r more) = some (codeOf r.code) := rfl
    rw [readResult.eq_def, hu] at h
    simp only [hx] at h
    split at h
    · rename_i c ws' e1 e2
      simp only [Option.some.injEq, Prod.mk.injEq] at h e1
      rw [← h.1, ← e1]
    · cases h
  · rw [SessionP.result_other m n hn] at h
    cases h

theorem success_inv (reg : Controls.Reg V R) (own : List Str) (r : Search.Resp) (x : PDict Str R) (h : Search.successResult reg own (some r) = some (.ok x)) : r.expected = true ∧ r.code = 0 := by
  simp only [Search.successResult] at h
  cases he : r.expected
  · rw [he] at h; cases h
  · refine ⟨rfl, ?_⟩
    rw [he] at h
    simp only [Bool.not_true, Bool.false_eq_true, if_false] at h
    by_cases h0 : r.code = Search.rcSuccess
    · exact h0
    · rw [if_neg h0] at h; cases h

theorem compare_inv (reg : Controls.Reg V R) (own : List Str) (r : Search.Resp) (b : Bool) (x : PDict Str R)
    (h : (Search.compareOp reg own false (.ok ()) (.ok ()) (some r)).1 = some (.ok (b, x))) : r.expected = true ∧ ((r.code = 6 ∧ b = true) ∨ (r.code = 5 ∧ b = false)) := by
  simp only [Search.compareOp, Bool.false_eq_true, if_false] at h
  cases he : r.expected
  · rw [he] at h; cases h
  · refine ⟨rfl, ?_⟩
    rw [he] at h
    simp only [Bool.not_true, Bool.false_eq_true, if_false] at h
    by_cases h6 : r.code = Search.rcCompareTrue
    · rw [if_pos h6] at h
      refine .inl ⟨h6, ?_⟩
      split at h
      · cases h
      · simp only [Option.some.injEq, Except.ok.injEq, Prod.mk.injEq] at h
        exact h.1.symm
    · rw [if_neg h6] at h
      by_cases h5 : r.code = Search.rcCompareFalse
      · rw [if_pos h5] at h
        refine .inr ⟨h5, ?_⟩
        split at h
        · cases h
        · simp only [Option.some.injEq, Except.ok.injEq, Prod.mk.injEq] at h
          exact h.1.symm
      · rw [if_neg h5] at h; cases h

theorem plain_inv (reg : Controls.Reg V R) (own : List Str) (c : Call) (v : Val) (hc : ∀ d a x, c ≠ .compare d a x) (he : ∀ o x, c ≠ .extended o x) (ret : Ret)
    (h : finish reg own c v = .returns ret) : ret = .done ∧ ∃ ws, readResult (waitsFor c) v = some (some (0, ws)) := by
  cases c <;> first | exact absurd rfl (he _ _) | exact absurd rfl (hc _ _ _) | skip
  all_goals
    simp only [finish] at h
    rcases hr : readResult (waitsFor _) v with _ | _ | ⟨code, ws⟩
    · rw [hr] at h; cases h
    · rw [hr] at h
      simp only [Search.successResult, Bool.not_false, if_true] at h
      cases h
    · rw [hr] at h
      simp only at h
      rcases hs : Search.successResult reg own (some ⟨true, code, ws⟩) with _ | e | x
      · rw [hs] at h; cases h
      · rw [hs] at h; cases h
      · rw [hs] at h
        simp only [Outcome.returns.injEq] at h
        have := (success_inv reg own _ _ hs).2
        simp only at this
        subst this
        exact ⟨h.symm, ws, rfl⟩

theorem named (o : Spec.Wire.Op) :
    (o.name = str "bindResponse" → ∃ r x, o = .bindResponse r x) ∧ (o.name = str "addResponse" → ∃ r, o = .addResponse r) ∧ (o.name = str "delResponse" → ∃ r, o = .delResponse r) ∧
    (o.name = str "modDNResponse" → ∃ r, o = .modDNResponse r) ∧ (o.name = str "modifyResponse" → ∃ r, o = .modifyResponse r) := by
  refine ⟨?_, ?_, ?_, ?_, ?_⟩ <;> intro h <;> cases o
  case refine_1.bindResponse r x => exact ⟨r, x, rfl⟩
  case refine_2.addResponse r => exact ⟨r, rfl⟩
  case refine_3.delResponse r => exact ⟨r, rfl⟩
  case refine_4.modDNResponse r => exact ⟨r, rfl⟩
  case refine_5.modifyResponse r => exact ⟨r, rfl⟩
  all_goals (exfalso; revert h; simp only [Spec.Wire.Op.name]; decide)

theorem string_inv (o : Option Bytes) (s : Str) (h : (match o.map oct with
    | none => (Except.ok [] : Except Err Str)
    | some w => match textOf w with
      | some s => .ok s
      | none => .error .ldapUnicode) = .ok s) : o.getD [] = utf8Enc s := by
  cases o with
  | none => cases h; rfl
  | some b =>
    change (match utf8Dec b with
      | some s => (Except.ok s : Except Err Str)
      | none => .error .ldapUnicode) = .ok s at h
    split at h
    · rename_i s' e
      cases h
      exact (utf8_dec_enc _ _ e).symm
    · cases h

theorem extended_inv (m : Spec.Wire.Message) (s : Str) (h : extendedValue (Laurelin.Wire.messageV m) = .ok s) :
    (∃ r n v, m.op = .extendedResp r n v ∧ r.code = 0 ∧ v.getD [] = utf8Enc s) ∨ ∃ n v, m.op = .intermediateResponse n v ∧ v.getD [] = utf8Enc s := by
  by_cases h1 : m.op.name = str "intermediateResponse"
  · obtain ⟨n, v, ho⟩ := SessionP.intermediate_name _ h1
    refine .inr ⟨n, v, ho, ?_⟩
    have hu := unpack_view m (str "intermediateResponse") (.seq (opt (n.map oct) (opt (v.map oct) .nil))) (by rw [ho]; rfl)
    rw [if_pos (by rw [ho]; rfl)] at hu
    have hf : field intermediateComps (str "responseValue") (.seq (opt (n.map oct) (opt (v.map oct) .nil))) = v.map oct := by cases n <;> cases v <;> rfl
    rw [extendedValue, hu] at h
    simp only [stringComponent, hf] at h
    exact string_inv v s h
  · by_cases h2 : m.op.name = str "extendedResp"
    · obtain ⟨r, n, v, ho⟩ := SessionP.extended_name _ h2
      refine .inl ⟨r, n, v, ho, ?_⟩
      have hop : Laurelin.Wire.opV m.op = .choice m.op.name (Laurelin.Wire.resultV r (opt (n.map oct) (opt (v.map oct) .nil))) := by rw [ho]; rfl
      have hu0 := unpack_view m (str "intermediateResponse") _ hop
      rw [if_neg h1] at hu0
      have hu := unpack_view m (str "extendedResp") _ hop
      rw [if_pos h2] at hu
      have hf : field extendedRespComps (str "responseValue") (Laurelin.Wire.resultV r (opt (n.map oct) (opt (v.map oct) .nil))) = v.map oct := by
        cases r with | mk a b c d => cases n <;> cases v <;> cases d <;> rfl
      have hc : intField extendedRespComps (str "resultCode") (Laurelin.Wire.resultV r (opt (n.map oct) (opt (v.map oct) .nil))) = some r.code := rfl
      rw [extendedValue, hu0] at h
      simp only [hu, hc, stringComponent, hf] at h
      by_cases h0 : r.code = 0
      · rw [if_pos h0] at h
        exact ⟨h0, string_inv v s h⟩
      · rw [if_neg h0] at h; cases h
    · rw [SessionP.extended_other m h2 h1] at h; cases h

/-- a call that returns has read a message that says so -/
theorem finish_inv (reg : Controls.Reg V R) (own : List Str) (c : Call) (hs : Single c) (m : Spec.Wire.Message) (ret : Ret) (h : finish reg own c (Laurelin.Wire.messageV m) = .returns ret) : Said c m.op ret := by
  have key : ∀ (_ : ∀ d a x, c ≠ .compare d a x) (_ : ∀ o x, c ≠ .extended o x),
      ret = .done ∧ m.op.name = waitsFor c ∧ ∀ r, m.op.result? = some r → r.code = 0 := by
    intro hc he
    obtain ⟨h1, ws, h2⟩ := plain_inv reg own c _ hc he ret h
    obtain ⟨h3, h4⟩ := result_code m _ _ _ h2
    exact ⟨h1, h3, fun r hr => (SessionP.code_iff r.code 0 (by decide)).1 (h4 r hr).symm⟩
  obtain ⟨n1, n2, n3, n4, n5⟩ := named m.op
  cases c with
  | simpleBind u p =>
    obtain ⟨rfl, k2, k3⟩ := key nofun nofun
    obtain ⟨r, x, ho⟩ := n1 k2
    rw [ho] at k3 ⊢
    exact .inl ⟨r, rfl, k3 r rfl, rfl⟩
  | add _ _ =>
    obtain ⟨rfl, k2, k3⟩ := key nofun nofun
    obtain ⟨r, ho⟩ := n2 k2
    rw [ho] at k3 ⊢
    exact .inl ⟨r, rfl, k3 r rfl, rfl⟩
  | delete _ =>
    obtain ⟨rfl, k2, k3⟩ := key nofun nofun
    obtain ⟨r, ho⟩ := n3 k2
    rw [ho] at k3 ⊢
    exact .inl ⟨r, rfl, k3 r rfl, rfl⟩
  | modDn _ =>
    obtain ⟨rfl, k2, k3⟩ := key nofun nofun
    obtain ⟨r, ho⟩ := n4 k2
    rw [ho] at k3 ⊢
    exact .inl ⟨r, rfl, k3 r rfl, rfl⟩
  | modify _ =>
    obtain ⟨rfl, k2, k3⟩ := key nofun nofun
    obtain ⟨r, ho⟩ := n5 k2
    rw [ho] at k3 ⊢
    exact .inl ⟨r, rfl, k3 r rfl, rfl⟩
  | compare d a x =>
    simp only [finish] at h
    rcases hr : readResult (waitsFor (.compare d a x)) (Laurelin.Wire.messageV m) with _ | _ | ⟨code, ws⟩
    · rw [hr] at h; cases h
    · rw [hr] at h
      simp only [Search.compareOp, Bool.not_false, if_true, Bool.false_eq_true, if_false] at h
      cases h
    · rw [hr] at h
      simp only at h
      rcases hc : (Search.compareOp reg own false (.ok ()) (.ok ()) (some ⟨true, code, ws⟩)).1 with _ | e | ⟨b, x⟩
      · rw [hc] at h; cases h
      · rw [hc] at h; cases h
      · rw [hc] at h
        simp only [Outcome.returns.injEq] at h
        have hb := (compare_inv reg own _ _ _ hc).2
        simp only at hb
        obtain ⟨h3, h4⟩ := result_code m _ _ _ hr
        obtain ⟨r, ho⟩ := SessionP.compare_name _ h3
        have h5 := h4 r (by rw [ho]; rfl)
        left
        rw [ho]
        rcases hb with ⟨k1, k2⟩ | ⟨k1, k2⟩
        · exact .inl ⟨(SessionP.code_iff r.code 6 (by decide)).1 (by rw [← h5, k1]), by rw [← h, k2]⟩
        · exact .inr ⟨(SessionP.code_iff r.code 5 (by decide)).1 (by rw [← h5, k1]), by rw [← h, k2]⟩
  | extended oid x =>
    simp only [finish] at h
    rcases hv : extendedValue (Laurelin.Wire.messageV m) with e | s
    · rw [hv] at h; cases h
    · rw [hv] at h
      simp only [Outcome.returns.injEq] at h
      rcases extended_inv m s hv with ⟨r, n, v, ho, h1, h2⟩ | ⟨n, v, ho, h1⟩
      · left
        rw [ho]
        exact ⟨h1, s, h2, h.symm⟩
      · exact .inr ⟨oid, x, n, v, s, rfl, ho, h1, h.symm⟩
  | _ => exact hs.elim

/-- a bind request is not taken for a response -/
theorem finish_bind (reg : Controls.Reg V R) (own : List Str) (c : Call) (hs : Single c) (v : Val) (ret : Ret) (h : finish reg own c v = .returns ret) : unpack (str "bindRequest") v = none := by
  have other : ∀ n, n ≠ str "bindRequest" → unpack (str "bindRequest") v ≠ none → unpack n v = none := by
    intro n hn hb
    unfold unpack at hb ⊢
    split at hb
    · rename_i got obj e
      by_cases hg : got = str "bindRequest"
      · rw [if_neg (fun e => hn (by rw [← e, hg]))]
      · rw [if_neg hg] at hb; exact absurd rfl hb
    · exact absurd rfl hb
  cases hb : unpack (str "bindRequest") v with
  | none => rfl
  | some x =>
    exfalso
    have ot := fun n hn => other n hn (by rw [hb]; nofun)
    have key : ∀ (_ : ∀ d a x, c ≠ .compare d a x) (_ : ∀ o x, c ≠ .extended o x), waitsFor c ≠ str "bindRequest" → False := by
      intro hc he hw
      obtain ⟨_, ws, h2⟩ := plain_inv reg own c _ hc he ret h
      rw [readResult.eq_def, ot _ hw] at h2
      cases h2
    cases c with
    | compare d a x =>
      simp only [finish, waitsFor] at h
      rw [readResult.eq_def, ot (str "compareResponse") (by decide)] at h
      simp only [Search.compareOp, Bool.not_false, if_true, Bool.false_eq_true, if_false] at h
      cases h
    | extended o x =>
      simp only [finish, extendedValue] at h
      rw [ot (str "intermediateResponse") (by decide), ot (str "extendedResp") (by decide)] at h
      cases h
    | search _ => exact hs.elim
    | saslBind _ _ => exact hs.elim
    | unbind => exact hs.elim
    | abandon _ => exact hs.elim
    | _ => exact key nofun nofun (by simp only [waitsFor]; decide)

/-- nothing is queued or waiting that was not received -/
def Good (S : Bytes) (st : St Decoded) : Prop := Queued codec S st.sock ∧ Pending S st.sock

theorem good_init : Good [] (St.init (M := Decoded)) := ⟨(fun _ _ _ h => by cases h), [], rfl⟩

theorem pending_more {S : Bytes} {s : Net.Sock UInt8 Decoded} (h : Pending S s) (l : List Bytes) : Pending (S ++ l.flatten) { s with chunks := s.chunks ++ l } := by
  obtain ⟨pre, h⟩ := h
  exact ⟨pre, by rw [h]; simp⟩

theorem request_from (reg : Controls.Reg V R) (own : List Str) (st : St Decoded) (S : Bytes) (hg : Good S st) (c : Call) (ctrls : Option (List Controls.Wire)) (arrives : List Bytes) :
    let r := request codec (fun d => d.1.1) reg own st c ctrls arrives
    Good (S ++ arrives.flatten) r.2 ∧ r.2.next = st.next + 1 ∧
      ∀ ret, r.1.2 = .returns ret → ∃ d : Decoded, In codec (S ++ arrives.flatten) d ∧ codec.mid d = st.next ∧ finish reg own c d.1.1 = .returns ret := by
  intro r
  have hq : Queued codec (S ++ arrives.flatten) { st.sock with chunks := st.sock.chunks ++ arrives } := queued_mono codec hg.1
  have hp := pending_more hg.2 arrives
  simp only [r, request]
  cases hsend : send st.next c.op ctrls with
  | none => exact ⟨⟨hq, hp⟩, rfl, nofun⟩
  | some bs =>
    obtain ⟨h1, h2, h3⟩ := next_from codec codec_sound (S ++ arrives.flatten) st.next (.top []) { st.sock with chunks := st.sock.chunks ++ arrives } hp hq
    simp only [Net.recvOne]
    rcases hn : Net.next codec st.next (.top []) { st.sock with chunks := st.sock.chunks ++ arrives } with ⟨o, p, s'⟩
    rw [hn] at h1 h2 h3
    have hpend : Pending (S ++ arrives.flatten) s' := by
      obtain ⟨pre, h⟩ := h2
      exact ⟨pre ++ p.raw, by rw [h]; simp⟩
    cases o with
    | yields m =>
      obtain ⟨k1, k2⟩ := h3 m rfl
      exact ⟨⟨h1, hpend⟩, rfl, fun ret h => ⟨m, k1, k2, h⟩⟩
    | unsolicited m => exact ⟨⟨h1, hpend⟩, rfl, nofun⟩
    | stop => exact ⟨⟨h1, hpend⟩, rfl, nofun⟩
    | blocked => exact ⟨⟨h1, hpend⟩, rfl, nofun⟩

theorem request_said (reg : Controls.Reg V R) (own : List Str) (st : St Decoded) (S : Bytes) (hg : Good S st) (c : Call) (hs : Single c) (ctrls : Option (List Controls.Wire)) (arrives : List Bytes)
    (hp : Spec.Wire.Plain (S ++ arrives.flatten)) (ret : Ret) (h : (request codec (fun d => d.1.1) reg own st c ctrls arrives).1.2 = .returns ret) :
    ∃ m : Spec.Wire.Message, m.id = (st.next : Int) ∧ Among (S ++ arrives.flatten) m ∧ Said c m.op ret := by
  obtain ⟨_, _, h3⟩ := request_from reg own st S hg c ctrls arrives
  obtain ⟨d, k1, k2, k3⟩ := h3 ret h
  obtain ⟨m, l1, l2, l3⟩ := among_of hp d k1 (finish_bind reg own c hs _ ret k3)
  rw [l2] at k3
  exact ⟨m, by rw [l3, k2], l1, finish_inv reg own c hs m ret k3⟩

theorem plain_front {S T : Bytes} (h : Spec.Wire.Plain (S ++ T)) : Spec.Wire.Plain S := plain_sub (pre := []) (post := T) h rfl

theorem run_said (reg : Controls.Reg V R) (own : List Str) (xs : List (Call × Option (List Controls.Wire) × List Bytes)) : ∀ (st : St Decoded) (S : Bytes), Good S st → (∀ x ∈ xs, Single x.1) →
    Spec.Wire.Plain (S ++ (xs.flatMap (fun x => x.2.2)).flatten) → ∀ (i : Nat) x bs ret, xs[i]? = some x → (Session.run codec (fun d => d.1.1) reg own st xs)[i]? = some (bs, .returns ret) →
    ∃ m : Spec.Wire.Message, m.id = ((st.next + i : Nat) : Int) ∧ Among (S ++ ((xs.take (i + 1)).flatMap (fun x => x.2.2)).flatten) m ∧ Said x.1 m.op ret := by
  induction xs with
  | nil => intro st S _ _ _ i x bs ret h; cases h
  | cons y ys ih =>
    intro st S hg hs hp i x bs ret hx hr
    obtain ⟨c, ctrls, arrives⟩ := y
    simp only [Session.run] at hr
    have hp' : Spec.Wire.Plain (S ++ arrives.flatten ++ (ys.flatMap (fun x => x.2.2)).flatten) := by
      rw [List.flatMap_cons, List.flatten_append, ← List.append_assoc] at hp
      exact hp
    cases i with
    | zero =>
      simp only [List.getElem?_cons_zero, Option.some.injEq] at hx hr
      subst hx
      have := request_said reg own st S hg c (hs _ (List.mem_cons_self ..)) ctrls arrives (plain_front hp') ret (by rw [hr])
      simpa using this
    | succ i =>
      simp only [List.getElem?_cons_succ] at hx hr
      obtain ⟨h1, h2, _⟩ := request_from reg own st S hg c ctrls arrives
      obtain ⟨m, k1, k2, k3⟩ := ih _ (S ++ arrives.flatten) h1 (fun x hx => hs x (List.mem_cons_of_mem _ hx)) hp' i x bs ret hx hr
      refine ⟨m, ?_, ?_, k3⟩
      · rw [k1, h2]
        congr 1
        omega
      · rw [List.take_succ_cons, List.flatMap_cons, List.flatten_append, ← List.append_assoc]
        exact k2

end

/-! ## Objects -/
section
open Received SessionS WireP Laurelin.Wire OverWireP OverWire
variable {V R S : Type} (lower : Str → Str) (typeOf : TypeOf AVal) (peer : Peer S) (said : S → Bytes) (hrec : Records said peer)

/-- nothing is queued or waiting that the other side has not sent -/
def GoodLink (l : Link Decoded S) : Prop := Good (said l.peer) l.st

include hrec in
theorem sendModify_from (env : OverWire.Env V R) (l : Link Decoded S) (hl : GoodLink said l) (rq : ModRequest AVal) :
    let r := sendModify codec (fun d => d.1.1) peer env l rq
    GoodLink said r.1 ∧ (Spec.Wire.Plain (said r.1.peer) → r.2 = .ok () → ∃ m : Spec.Wire.Message, m.id = (l.st.next : Int) ∧ Among (said r.1.peer) m ∧ ∃ x, m.op = .modifyResponse x ∧ x.code = 0) := by
  intro r
  simp only [r, sendModify]
  cases hs : send l.st.next (Call.modify rq).op env.ctrls with
  | none => exact ⟨hl, nofun⟩
  | some bs =>
    simp only
    obtain ⟨h1, _, _⟩ := request_from env.conn.reg env.own l.st (said l.peer) hl (.modify rq) env.ctrls (peer l.peer bs).2
    have hp := hrec l.peer bs
    refine ⟨by unfold GoodLink; rw [hp]; exact h1, ?_⟩
    rw [hp]
    intro hpl hok
    have key := request_said env.conn.reg env.own l.st (said l.peer) hl (.modify rq) trivial env.ctrls (peer l.peer bs).2 hpl
    rcases ho : (Session.request codec (fun d => d.1.1) env.conn.reg env.own l.st (.modify rq) env.ctrls (peer l.peer bs).2).1.2 with ret | e | _
    · obtain ⟨m, k1, k2, k3⟩ := key ret ho
      refine ⟨m, k1, k2, ?_⟩
      rcases k3 with k3 | ⟨_, _, _, _, _, k3, _⟩
      · obtain ⟨x, q1, q2, _⟩ := k3
        cases hop : m.op <;> rw [hop] at q1 <;> first | (cases q1; exact ⟨_, rfl, q2⟩) | cases q1
      · cases k3
    · rw [ho] at hok; cases hok
    · rw [ho] at hok; cases hok

theorem collect_from (S : Bytes) (want : Nat) : ∀ (n : Nat) (p : Net.Phase UInt8) (s : Net.Sock UInt8 Decoded), Ends S p.raw s.chunks.flatten → Queued codec S s →
    let r := collect codec (fun d => d.1.1) want n p s
    Queued codec S r.2 ∧ Pending S r.2 ∧ ∀ x ∈ r.1.1, ∃ d : Decoded, In codec S d ∧ codec.mid d = want ∧ searchMsg d.1.1 = some x := by
  intro n
  induction n with
  | zero =>
    intro p s he hq r
    obtain ⟨pre, h⟩ := he
    exact ⟨hq, ⟨pre ++ p.raw, by rw [h]; simp [r, collect]⟩, nofun⟩
  | succ n ih =>
    intro p s he hq r
    obtain ⟨h1, h2, h3⟩ := next_from codec codec_sound S want p s he hq
    simp only [r, collect]
    rcases hn : Net.next codec want p s with ⟨o, p', s'⟩
    rw [hn] at h1 h2 h3
    simp only at h1 h2 h3
    have hpend : Pending S s' := by
      obtain ⟨pre, h⟩ := h2
      exact ⟨pre ++ p'.raw, by rw [h]; simp⟩
    cases o with
    | yields m =>
      obtain ⟨k1, k2⟩ := h3 m rfl
      simp only
      cases hm : searchMsg m.1.1 with
      | none => exact ⟨h1, hpend, nofun⟩
      | some x =>
        obtain ⟨i1, i2, i3⟩ := ih p' s' h2 h1
        have one : ∀ y, y ∈ [x] → ∃ d : Decoded, In codec S d ∧ codec.mid d = want ∧ searchMsg d.1.1 = some y := by
          intro y hy
          rw [List.mem_singleton.1 hy]
          exact ⟨m, k1, k2, hm⟩
        have more : ∀ y, y ∈ x :: (collect codec (fun d => d.1.1) want n p' s').1.1 → ∃ d : Decoded, In codec S d ∧ codec.mid d = want ∧ searchMsg d.1.1 = some y := by
          intro y hy
          rcases List.mem_cons.1 hy with hy | hy
          · exact one y (by rw [hy]; simp)
          · exact i3 y hy
        cases x with
        | done c ws us => exact ⟨h1, hpend, one⟩
        | other => exact ⟨h1, hpend, one⟩
        | entry e ws => exact ⟨i1, i2, more⟩
        | ref us ws => exact ⟨i1, i2, more⟩
    | stop => exact ⟨h1, hpend, nofun⟩
    | unsolicited m => exact ⟨h1, hpend, nofun⟩
    | blocked => exact ⟨h1, hpend, nofun⟩

/-- what an iteration yields and how it stops, if references cannot be followed -/
theorem iterate_inv (env : Search.Env V R Entry) (hf : ∀ u, ∃ e, env.fetch u = ([], some e)) (ms : List (Search.Msg Entry)) : ∀ (tag : Option Bool) (t : Controls.Target R),
    (∀ e o, Search.Item.entry e o ∈ (Search.iterate env tag t ms).yields → ∃ cs, Search.Msg.entry e cs ∈ ms) ∧
    ((Search.iterate env tag t ms).ending = .stop → ∃ code cs refs, Search.Msg.done code cs refs ∈ ms ∧ (code = 0 ∨ code = 32 ∨ (code = 10 ∧ env.follow = false))) := by
  induction ms with
  | nil => intro tag t; exact ⟨nofun, nofun⟩
  | cons x ms ih =>
    intro tag t
    have up : ∀ {tag t}, (∀ e o, Search.Item.entry e o ∈ (Search.iterate env tag t ms).yields → ∃ cs, Search.Msg.entry e cs ∈ x :: ms) ∧
        ((Search.iterate env tag t ms).ending = .stop → ∃ code cs refs, Search.Msg.done code cs refs ∈ x :: ms ∧ (code = 0 ∨ code = 32 ∨ (code = 10 ∧ env.follow = false))) := by
      intro tag t
      obtain ⟨h1, h2⟩ := ih tag t
      refine ⟨fun e o h => ?_, fun h => ?_⟩
      · obtain ⟨cs, hc⟩ := h1 e o h
        exact ⟨cs, List.mem_cons_of_mem _ hc⟩
      · obtain ⟨code, cs, refs, hc, hd⟩ := h2 h
        exact ⟨code, cs, refs, List.mem_cons_of_mem _ hc, hd⟩
    cases x with
    | entry e cs =>
      simp only [Search.iterate]
      split
      · exact ⟨nofun, nofun⟩
      · split
        · exact ⟨nofun, nofun⟩
        · rename_i o _
          refine ⟨fun e' o' h => ?_, fun h => up.2 h⟩
          rcases List.mem_cons.1 h with h | h
          · cases h; exact ⟨cs, List.mem_cons_self ..⟩
          · exact up.1 e' o' h
    | done code cs refs =>
      simp only [Search.iterate]
      split
      · rename_i hc
        split
        · exact ⟨nofun, nofun⟩
        · refine ⟨nofun, fun _ => ⟨code, cs, refs, List.mem_cons_self .., ?_⟩⟩
          rcases hc with hc | hc
          · exact .inl hc
          · exact .inr (.inl hc)
      · split
        · rename_i h10
          split
          · obtain ⟨e, he⟩ := hf refs
            simp only [he]
            exact ⟨nofun, nofun⟩
          · rename_i hfol
            exact ⟨nofun, fun _ => ⟨code, cs, refs, List.mem_cons_self .., .inr (.inr ⟨h10, by simpa using hfol⟩)⟩⟩
        · exact ⟨nofun, nofun⟩
    | ref uris cs =>
      simp only [Search.iterate]
      split
      · obtain ⟨e, he⟩ := hf uris
        simp only [he]
        exact ⟨nofun, nofun⟩
      · split
        · exact ⟨nofun, nofun⟩
        · refine ⟨fun e' o' h => ?_, fun h => up.2 h⟩
          rcases List.mem_cons.1 h with h | h
          · cases h
          · exact up.1 e' o' h
    | other => exact ⟨nofun, nofun⟩

theorem not_bind (v : Val) (n : Str) (hn : n ≠ str "bindRequest") (x : Val × Option Val) (h : unpack n v = some x) : unpack (str "bindRequest") v = none := by
  unfold unpack at h ⊢
  split at h
  · rename_i got obj e
    by_cases hg : got = n
    · rw [if_neg (fun e => hn (by rw [← hg, e]))]
    · rw [if_neg hg] at h; cases h
  · cases h

theorem mem_set (d : PDict Str (List AVal)) (k : Str) (v : List AVal) (p : Str × List AVal) (h : p ∈ d.set k v) : p ∈ d ∨ p = (k, v) := by
  induction d with
  | nil => exact .inr (List.mem_singleton.1 h)
  | cons q d ih =>
    obtain ⟨a, w⟩ := q
    rw [PDict.set] at h
    split at h
    · rename_i e
      rcases List.mem_cons.1 h with h | h
      · exact .inr (by rw [h, e])
      · exact .inl (List.mem_cons_of_mem _ h)
    · rcases List.mem_cons.1 h with h | h
      · exact .inl (by rw [h]; exact List.mem_cons_self ..)
      · rcases ih h with h | h
        · exact .inl (List.mem_cons_of_mem _ h)
        · exact .inr h

theorem read_attrs_inv (attrs : List Spec.Wire.Attr) : ∀ (d0 d : PDict Str (List AVal)), readAttrs d0 (attrs.map attrV) = some d → ∀ k vs, (k, vs) ∈ d →
    (k, vs) ∈ d0 ∨ ∃ a ∈ attrs, a.type = utf8Enc k ∧ vs = a.vals.map shown := by
  induction attrs with
  | nil => intro d0 d h k vs hk; cases h; exact .inl hk
  | cons a attrs ih =>
    intro d0 d h k vs hk
    have h1 : field attributeComps (str "type") (attrV a) = some (.octets a.type) := rfl
    have h2 : field attributeComps (str "vals") (attrV a) = some (octs a.vals) := rfl
    have h3 : textOf (.octets a.type) = utf8Dec a.type := rfl
    simp only [List.map_cons, readAttrs, h1, h2, Option.bind_some, h3] at h
    split at h
    · rename_i n vs' e1 e2
      cases e2
      rcases ih _ _ h k vs hk with h' | ⟨b, hb, h'⟩
      · rcases mem_set _ _ _ _ h' with h' | h'
        · exact .inl h'
        · simp only [Prod.mk.injEq, seq_to_list] at h'
          obtain ⟨rfl, rfl⟩ := h'
          exact .inr ⟨a, List.mem_cons_self .., (utf8_dec_enc _ _ e1).symm, rfl⟩
      · exact .inr ⟨b, List.mem_cons_of_mem _ hb, h'⟩
    · cases h

theorem entry_inv (m : Spec.Wire.Message) (dn : Str) (d : PDict Str (List AVal)) (ws : List Controls.Wire) (h : searchMsg (messageV m) = some (.entry (dn, d) ws)) :
    ∃ attrs, m.op = .searchResEntry (utf8Enc dn) attrs ∧ ∀ k vs, (k, vs) ∈ d → ∃ a ∈ attrs, a.type = utf8Enc k ∧ vs = a.vals.map shown := by
  obtain ⟨obj, ho⟩ := op_shape m.op
  have hu := unpack_view m (str "searchResEntry") obj ho
  by_cases hn : m.op.name = str "searchResEntry"
  · rw [if_pos hn] at hu
    rw [searchMsg, hu] at h
    simp only at h
    have hop : ∃ n attrs, m.op = .searchResEntry n attrs := by
      revert hn
      cases m.op
      case searchResEntry n a => exact fun _ => ⟨n, a, rfl⟩
      all_goals (intro h; exfalso; revert h; simp only [Spec.Wire.Op.name]; decide)
    obtain ⟨n, attrs, hop⟩ := hop
    rw [hop] at ho
    simp only [opV, Val.choice.injEq] at ho
    obtain ⟨_, rfl⟩ := ho
    have h1 : field entryComps (str "objectName") (.seq (.cons (.octets n) (.cons (listV (attrs.map attrV)) .nil))) = some (.octets n) := rfl
    have h2 : field entryComps (str "attributes") (.seq (.cons (.octets n) (.cons (listV (attrs.map attrV)) .nil))) = some (listV (attrs.map attrV)) := rfl
    have h3 : textOf (.octets n) = utf8Dec n := rfl
    have h4 : elems (listV (attrs.map attrV)) = attrs.map attrV := by simp only [listV, elems, vals_ofList]
    rw [readEntry, h1, h2] at h
    simp only [Option.bind_some, h3, h4] at h
    rcases hd : utf8Dec n with _ | dn'
    · rw [hd] at h; cases h
    · rw [hd] at h
      simp only [h4] at h
      rcases ha : readAttrs [] (attrs.map attrV) with _ | d'
      · rw [ha] at h; cases h
      · rw [ha] at h
        simp only [Option.map_some] at h
        split at h
        · rename_i e ws' e1 e2
          simp only [Option.some.injEq, Search.Msg.entry.injEq] at h e1
          obtain ⟨h, _⟩ := h
          rw [← e1, Prod.mk.injEq] at h
          obtain ⟨rfl, rfl⟩ := h
          refine ⟨attrs, by rw [hop, utf8_dec_enc _ _ hd], fun k vs hk => ?_⟩
          rcases read_attrs_inv attrs _ _ ha k vs hk with h | h
          · cases h
          · exact h
        · cases h
  · rw [if_neg hn] at hu
    rw [searchMsg, hu] at h
    simp only at h
    split at h
    · split at h <;> cases h
    · split at h
      · split at h <;> cases h
      · cases h

theorem done_inv (m : Spec.Wire.Message) (code : Nat) (ws : List Controls.Wire) (refs : List Str) (h : searchMsg (messageV m) = some (.done code ws refs)) :
    ∃ r, m.op = .searchResDone r ∧ code = codeOf r.code := by
  obtain ⟨obj, ho⟩ := op_shape m.op
  have hu0 := unpack_view m (str "searchResEntry") obj ho
  have hu := unpack_view m (str "searchResDone") obj ho
  by_cases hn0 : m.op.name = str "searchResEntry"
  · rw [if_pos hn0] at hu0
    rw [searchMsg, hu0] at h
    simp only at h
    split at h <;> cases h
  · rw [if_neg hn0] at hu0
    rw [searchMsg, hu0] at h
    by_cases hn : m.op.name = str "searchResDone"
    · rw [if_pos hn] at hu
      rw [hu] at h
      simp only at h
      have hop : ∃ r, m.op = .searchResDone r := by
        revert hn
        cases m.op
        case searchResDone r => exact fun _ => ⟨r, rfl⟩
        all_goals (intro h; exfalso; revert h; simp only [Spec.Wire.Op.name]; decide)
      obtain ⟨r, hop⟩ := hop
      rw [hop] at ho
      simp only [opV, Val.choice.injEq] at ho
      obtain ⟨_, rfl⟩ := ho
      refine ⟨r, hop, ?_⟩
      have hx : resultCode (resultComps .nil) (resultV r .nil) = some (codeOf r.code) := rfl
      rw [hx] at h
      split at h
      · rename_i c ws' rf e1 e2 e3
        simp only [Option.some.injEq, Search.Msg.done.injEq] at h e1
        rw [← h.1, ← e1]
      · cases h
    · rw [if_neg hn] at hu
      rw [hu] at h
      simp only at h
      split at h
      · split at h <;> cases h
      · cases h

/-- a message that was seen in the search was received -/
theorem seen_among {S : Bytes} (hp : Spec.Wire.Plain S) (d : Decoded) (h : In codec S d) (x : Search.Msg Entry) (hx : searchMsg d.1.1 = some x) (ho : x ≠ .other) :
    ∃ m : Spec.Wire.Message, m.id = (codec.mid d : Int) ∧ Among S m ∧ searchMsg (messageV m) = some x := by
  have hb : unpack (str "bindRequest") d.1.1 = none := by
    cases h1 : unpack (str "searchResEntry") d.1.1 with
    | some p => exact not_bind _ _ (by decide) _ h1
    | none =>
      cases h2 : unpack (str "searchResDone") d.1.1 with
      | some p => exact not_bind _ _ (by decide) _ h2
      | none =>
        cases h3 : unpack (str "searchResRef") d.1.1 with
        | some p => exact not_bind _ _ (by decide) _ h3
        | none =>
          exfalso
          simp only [searchMsg, h1, h2, h3, Option.some.injEq] at hx
          exact ho hx.symm
  obtain ⟨m, l1, l2, l3⟩ := among_of hp d h hb
  exact ⟨m, l3, l1, by rw [← l2]; exact hx⟩

/-- what `update` has taken over -/
theorem update_src (got : PDict Str (List AVal)) (d : AttrsDict AVal) (hd : CIDict.Inv lower d) : CIDict.Inv lower (CIDict.update lower d got) ∧
    ∀ x v, CIDict.abs (CIDict.update lower d got) x = some v → CIDict.abs d x = some v ∨ ∃ kv ∈ got, lower kv.1 = x ∧ kv.2 = v := by
  induction got generalizing d with
  | nil => exact ⟨hd, fun x v h => .inl h⟩
  | cons p got ih =>
    obtain ⟨h1, h2⟩ := ih (CIDict.setItem lower d p.1 p.2) (CIDict.inv_set lower d _ _ hd)
    refine ⟨h1, fun x v h => ?_⟩
    rcases h2 x v h with h | ⟨kv, hk, h⟩
    · rw [CIDict.abs_set lower d _ _ hd] at h
      simp only [FoldMap.put] at h
      by_cases hx : x = lower p.1
      · rw [if_pos hx] at h
        cases h
        exact .inr ⟨p, List.mem_cons_self .., hx.symm, rfl⟩
      · rw [if_neg hx] at h
        exact .inl h
    · exact .inr ⟨kv, List.mem_cons_of_mem _ hk, h⟩

theorem updateCI_src (other : AttrsDict AVal) (ho : CIDict.Inv lower other) (l : List (Str × List AVal)) : ∀ (d d' : AttrsDict AVal), CIDict.Inv lower d →
    l.foldlM (fun acc kv => do
      let v ← CIDict.getItem lower other kv.1
      pure (CIDict.setItem lower acc kv.1 v)) d = .ok d' →
    CIDict.Inv lower d' ∧ ∀ x, CIDict.abs d' x = CIDict.abs d x ∨ ∃ v, CIDict.abs other x = some v ∧ CIDict.abs d' x = some v := by
  induction l with
  | nil => intro d d' hd h; cases h; exact ⟨hd, fun x => .inl rfl⟩
  | cons p l ih =>
    intro d d' hd h
    rw [List.foldlM_cons] at h
    rw [CIDict.getItem_eq lower other ho] at h
    cases hv : CIDict.abs other (lower p.1) with
    | none => rw [hv] at h; cases h
    | some v =>
      rw [hv] at h
      obtain ⟨h1, h2⟩ := ih _ _ (CIDict.inv_set lower d p.1 v hd) h
      refine ⟨h1, fun x => ?_⟩
      rcases h2 x with h2 | h2
      · rw [CIDict.abs_set lower d _ _ hd] at h2
        simp only [FoldMap.put] at h2
        by_cases hx : x = lower p.1
        · rw [if_pos hx] at h2
          exact .inr ⟨v, by rw [hx]; exact hv, h2⟩
        · rw [if_neg hx] at h2
          exact .inl h2
      · exact .inr h2

theorem are_values (l : List Bytes) : AreValues l (l.map shown) := by
  refine ⟨?_, fun v hv => ?_⟩
  · rw [List.map_map]
    conv => rhs; rw [← List.map_id l]
    exact List.map_congr_left (fun b _ => bytes_shown b)
  · obtain ⟨b, _, rfl⟩ := List.mem_map.1 hv
    rw [bytes_shown]
    exact shown_ok b

include hrec in
theorem fetch_from (env : OverWire.Env V R) (l : Link Decoded S) (hl : GoodLink said l) (attrs : List Str) :
    let r := fetch codec (fun d => d.1.1) peer env l attrs
    GoodLink said r.1 ∧ ((∀ u, ∃ e, env.results.fetch u = ([], some e)) → Spec.Wire.Plain (said r.1.peer) → ∀ got, r.2 = .ok got → Found (said r.1.peer) l.st.next got) := by
  intro r
  simp only [r, fetch]
  cases hs : ldapSearch { env.conn with unbound := env.obj.unbound } { base := env.obj.dn, scope := .base, attrs := some attrs, limit := 2 } with
  | error e => exact ⟨hl, nofun⟩
  | ok sent =>
    simp only
    cases hsend : send l.st.next (Call.search sent.req).op sent.ctrls with
    | none => exact ⟨hl, nofun⟩
    | some bs =>
      simp only
      have hp := hrec l.peer bs
      have hq : Queued codec (said l.peer ++ (peer l.peer bs).2.flatten) { l.st.sock with chunks := l.st.sock.chunks ++ (peer l.peer bs).2 } := queued_mono codec hl.1
      obtain ⟨h1, h2, h3⟩ := collect_from (said l.peer ++ (peer l.peer bs).2.flatten) l.st.next ((l.st.sock.chunks ++ (peer l.peer bs).2).flatten.length + 1) (.top []) _ (pending_more hl.2 (peer l.peer bs).2) hq
      generalize collect codec (fun d => d.1.1) l.st.next ((l.st.sock.chunks ++ (peer l.peer bs).2).flatten.length + 1) (.top []) { l.st.sock with chunks := l.st.sock.chunks ++ (peer l.peer bs).2 } = c at h1 h2 h3 ⊢
      rw [← hp] at h1 h2 h3
      refine ⟨⟨h1, h2⟩, fun hf hpl got hgot => ?_⟩
      obtain ⟨i1, i2⟩ := iterate_inv { env.results with fetchRefs := sent.fetchRefs, follow := sent.follow } hf c.1.1 none ⟨env.handleOwn, []⟩
      generalize Search.iterate { env.results with fetchRefs := sent.fetchRefs, follow := sent.follow } none ⟨env.handleOwn, []⟩ c.1.1 = o at i1 i2 hgot
      rcases o with ⟨yields, ending, rest, done, target⟩
      simp only at i1 i2 hgot
      cases ending with
      | raised e => cases hgot
      | waiting => cases hgot
      | stop =>
        simp only at hgot
        obtain ⟨code, cs, refs, hd, hcode⟩ := i2 rfl
        match yields with
        | [] => cases hgot
        | [.ref u o] => cases hgot
        | _ :: _ :: _ => cases hgot
        | [.entry e o] =>
          simp only [Search.getOneResult, Except.ok.injEq] at hgot
          subst hgot
          obtain ⟨cs', he⟩ := i1 e o (by simp)
          obtain ⟨dd, d1, d2, d3⟩ := h3 _ hd
          obtain ⟨de, e1, e2, e3⟩ := h3 _ he
          obtain ⟨m', p1, p2, p3⟩ := seen_among hpl dd d1 _ d3 nofun
          obtain ⟨m, q1, q2, q3⟩ := seen_among hpl de e1 _ e3 nofun
          obtain ⟨r, r1, r2⟩ := done_inv m' _ _ _ p3
          obtain ⟨as, a1, a2⟩ := entry_inv m e.1 e.2 cs' q3
          refine ⟨m, m', by rw [q1, e2], by rw [p1, d2], q2, p2, ⟨r, r1, ?_⟩, e.1, as, a1, fun k vs hk => ?_⟩
          · rcases hcode with h | h | ⟨h, _⟩
            · exact .inl ((SessionP.code_iff r.code 0 (by decide)).1 (by rw [← r2, h]))
            · exact .inr (.inl ((SessionP.code_iff r.code 32 (by decide)).1 (by rw [← r2, h])))
            · exact .inr (.inr ((SessionP.code_iff r.code 10 (by decide)).1 (by rw [← r2, h])))
          · obtain ⟨a, ha, hb, hc⟩ := a2 k vs hk
            exact ⟨a, ha, hb, by rw [hc]; exact are_values _⟩

/-- the object afterwards: every attribute as before, or as the entry that was found says -/
theorem refresh_src (d d' : AttrsDict AVal) (hd : CIDict.Inv lower d) (got : PDict Str (List AVal)) (h : CIDict.updateCI lower d (CIDict.update lower CIDict.empty got) = .ok d') :
    CIDict.Inv lower d' ∧ ∀ attr, AttrsDict.getAttr lower d' attr = AttrsDict.getAttr lower d attr ∨ ∃ kv ∈ got, lower kv.1 = lower attr ∧ kv.2 = AttrsDict.getAttr lower d' attr := by
  obtain ⟨h1, h2⟩ := update_src lower got CIDict.empty (CIDict.inv_empty lower)
  obtain ⟨h3, h4⟩ := updateCI_src lower _ h1 _ d d' hd h
  refine ⟨h3, fun attr => ?_⟩
  rw [getAttr_abs lower d' h3, getAttr_abs lower d hd]
  rcases h4 (lower attr) with h | ⟨v, h5, h6⟩
  · rw [h]; exact .inl rfl
  · rcases h2 _ v h5 with h | ⟨kv, hk, hl, hv⟩
    · cases h
    · exact .inr ⟨kv, hk, hl, by rw [h6, hv]; rfl⟩

/-- what is maintained, whatever the other side does -/
def GoodWorld (w : World S) : Prop := GoodLink said w.link ∧ CIDict.Inv lower w.obj

include hrec in
theorem refresh_from (env : OverWire.Env V R) (l : Link Decoded S) (hl : GoodLink said l) (d : AttrsDict AVal) (hd : CIDict.Inv lower d) (attrs : List Str) :
    let r := OverWire.refresh codec (fun d => d.1.1) peer env lower l d attrs
    GoodLink said r.1 ∧ ∀ d', r.2 = .ok d' → CIDict.Inv lower d' ∧ ((∀ u, ∃ e, env.results.fetch u = ([], some e)) → Spec.Wire.Plain (said r.1.peer) →
      ∃ got, Found (said r.1.peer) l.st.next got ∧
        ∀ attr, AttrsDict.getAttr lower d' attr = AttrsDict.getAttr lower d attr ∨ ∃ kv ∈ got, lower kv.1 = lower attr ∧ kv.2 = AttrsDict.getAttr lower d' attr) := by
  intro r
  simp only [r, OverWire.refresh]
  obtain ⟨h1, h2⟩ := fetch_from peer said hrec env l hl attrs
  rcases hx : fetch codec (fun d => d.1.1) peer env l attrs with ⟨l', e | got⟩
  · rw [hx] at h1
    exact ⟨h1, nofun⟩
  · rw [hx] at h1 h2
    refine ⟨h1, fun d' hd' => ?_⟩
    obtain ⟨h3, h4⟩ := refresh_src lower d d' hd got hd'
    exact ⟨h3, fun hf hp => ⟨got, h2 hf hp got rfl, h4⟩⟩

include hrec in
theorem prepare_from (env : OverWire.Env V R) (l : Link Decoded S) (hl : GoodLink said l) (d : AttrsDict AVal) (hd : CIDict.Inv lower d) (attrs : List Str) :
    let r := prepare codec (fun d => d.1.1) peer env lower l d attrs
    GoodLink said r.1 ∧ ∀ d', r.2 = .ok d' → CIDict.Inv lower d' := by
  intro r
  simp only [r, prepare, OverWire.refreshMissing]
  split
  · exact ⟨hl, fun d' h => by cases h; exact hd⟩
  · split
    · obtain ⟨h1, h2⟩ := refresh_from lower peer said hrec env l hl d hd (attrs.filter (fun a => !AttrsDict.has lower d a))
      exact ⟨h1, fun d' h => (h2 d' h).1⟩
    · exact ⟨hl, fun d' h => by cases h; exact hd⟩

include hrec in
theorem modifyObj_from (env : OverWire.Env V R) (l : Link Decoded S) (hl : GoodLink said l) (d : AttrsDict AVal) (hd : CIDict.Inv lower d) (mods : List (Mod AVal)) :
    let r := modifyObj codec (fun d => d.1.1) peer env lower typeOf l d mods
    GoodLink said r.link ∧ CIDict.Inv lower r.obj ∧ (Spec.Wire.Plain (said r.link.peer) → r.result = .ok () →
      r.link = l ∨ ∃ m : Spec.Wire.Message, m.id = (l.st.next : Int) ∧ Among (said r.link.peer) m ∧ ∃ x, m.op = .modifyResponse x ∧ x.code = 0) := by
  intro r
  have hobj : CIDict.Inv lower r.obj := by
    simp only [r, modifyObj, ObjEnv.modify, objModify]
    split
    · exact hd
    · exact (localModify_frame lower typeOf _ d hd).1
  have hres : r.result = .ok () → (ldapModify env.obj.unbound env.obj.validators env.obj.opts env.obj.ctrls (fun rq => (sendModify codec (fun d => d.1.1) peer env l rq).2) env.obj.dn mods (some d)).result = .ok () := by
    intro h
    simp only [r, modifyObj, ObjEnv.modify, objModify] at h
    split at h
    · rename_i e he
      rw [he] at h
      cases h
    · rename_i he
      exact he
  have hlink : r.link = (ldapModify env.obj.unbound env.obj.validators env.obj.opts env.obj.ctrls (fun rq => (sendModify codec (fun d => d.1.1) peer env l rq).2) env.obj.dn mods (some d)).sent.foldl
      (fun l rq => (sendModify codec (fun d => d.1.1) peer env l rq).1) l := by
    simp only [r, modifyObj, ObjEnv.modify, objModify]
    split <;> rfl
  have cases_ : ∀ (srv : ModRequest AVal → Except Err Unit), let o := ldapModify env.obj.unbound env.obj.validators env.obj.opts env.obj.ctrls srv env.obj.dn mods (some d)
      o.sent = [] ∨ ∃ rq, o.sent = [rq] ∧ o.result = srv rq := by
    intro srv
    simp only [ldapModify]
    split
    · split
      · exact .inl rfl
      · split
        · exact .inl rfl
        · split
          · exact .inl rfl
          · split
            · split
              · exact .inl rfl
              · exact .inr ⟨_, rfl, rfl⟩
            · exact .inl rfl
    · exact .inl rfl
  rcases cases_ (fun rq => (sendModify codec (fun d => d.1.1) peer env l rq).2) with h | ⟨rq, h1, h2⟩
  · rw [h, List.foldl_nil] at hlink
    exact ⟨by rw [hlink]; exact hl, hobj, fun _ _ => .inl hlink⟩
  · rw [h1, List.foldl_cons, List.foldl_nil] at hlink
    obtain ⟨k1, k2⟩ := sendModify_from peer said hrec env l hl rq
    refine ⟨by rw [hlink]; exact k1, hobj, fun hp hok => .inr ?_⟩
    have := hres hok
    rw [h2] at this
    rw [hlink] at hp ⊢
    exact k2 hp this

include hrec in
theorem call_from (env : OverWire.Env V R) (w : World S) (hw : GoodWorld lower said w) (c : ObjCall AVal) : GoodWorld lower said (callOver lower typeOf peer env w c).1 := by
  obtain ⟨hl, hd⟩ := hw
  have mod : ∀ l d mods, GoodLink said l → CIDict.Inv lower d → let r := modifyObj codec (fun d => d.1.1) peer env lower typeOf l d mods; GoodWorld lower said ⟨r.obj, r.link⟩ := by
    intro l d mods hl hd
    obtain ⟨h1, h2, _⟩ := modifyObj_from lower typeOf peer said hrec env l hl d hd mods
    exact ⟨h1, h2⟩
  cases c with
  | modify mods => exact mod _ _ _ hl hd
  | addAttrs new =>
    simp only [callOver, addAttrs]
    obtain ⟨h1, h2⟩ := prepare_from lower peer said hrec env w.link hl w.obj hd (new.map Prod.fst)
    rcases hx : prepare codec (fun d => d.1.1) peer env lower w.link w.obj (new.map Prod.fst) with ⟨l', e | d'⟩
    · rw [hx] at h1
      exact ⟨h1, hd⟩
    · rw [hx] at h1 h2
      simp only
      split
      · exact ⟨h1, h2 d' rfl⟩
      · exact mod _ _ _ h1 (h2 d' rfl)
  | replaceAttrs new =>
    simp only [callOver, replaceAttrs]
    split
    · exact ⟨hl, hd⟩
    · exact mod _ _ _ hl hd
  | deleteAttrs del =>
    simp only [callOver, deleteAttrs]
    obtain ⟨h1, h2⟩ := prepare_from lower peer said hrec env w.link hl w.obj hd (del.map Prod.fst)
    rcases hx : prepare codec (fun d => d.1.1) peer env lower w.link w.obj (del.map Prod.fst) with ⟨l', e | d'⟩
    · rw [hx] at h1
      exact ⟨h1, hd⟩
    · rw [hx] at h1 h2
      simp only
      split
      · exact ⟨h1, h2 d' rfl⟩
      · exact mod _ _ _ h1 (h2 d' rfl)
  | refresh attrs =>
    simp only [callOver, refreshObj]
    obtain ⟨h1, h2⟩ := refresh_from lower peer said hrec env w.link hl w.obj hd attrs
    rcases hx : OverWire.refresh codec (fun d => d.1.1) peer env lower w.link w.obj attrs with ⟨l', e | d'⟩
    · rw [hx] at h1
      exact ⟨h1, hd⟩
    · rw [hx] at h1 h2
      exact ⟨h1, (h2 d' rfl).1⟩

include hrec in
theorem after_from (hist : List (OverWire.Env V R × ObjCall AVal)) : ∀ (w : World S), GoodWorld lower said w → GoodWorld lower said (World.after lower typeOf peer w hist) := by
  induction hist with
  | nil => exact fun w h => h
  | cons x hist ih => exact fun w h => ih _ (call_from lower typeOf peer said hrec x.1 w h x.2)

theorem good_start (s0 : S) (h0 : said s0 = []) : GoodWorld lower said ⟨CIDict.empty, ⟨Session.St.init, s0⟩⟩ := by
  refine ⟨?_, CIDict.inv_empty lower⟩
  unfold GoodLink
  rw [h0]
  exact good_init

end
end AnsweredP

open AnsweredP Received Session SessionS WireP

/-- **C89 (no success that was not announced).** Calls one after the other on a new connection, with anything at all arriving while they wait, in any pieces: if call number n returns, then among the
octets that have arrived until then is a message with ID n that is the call's own kind of response and says what the call returned: success, the truth of a comparison, the value of an extended
operation; only an extended operation may also return what an intermediate response says. -/
theorem c89_session {V R : Type} (reg : Controls.Reg V R) (own : List Str) (xs : List (Call × Option (List Controls.Wire) × List Bytes)) (hs : ∀ x ∈ xs, Single x.1)
    (hp : Spec.Wire.Plain (xs.flatMap (fun x => x.2.2)).flatten) (i : Nat) (x : Call × Option (List Controls.Wire) × List Bytes) (bs : Option Bytes) (ret : Ret) (hx : xs[i]? = some x)
    (hr : (Session.run codec (fun d => d.1.1) reg own St.init xs)[i]? = some (bs, .returns ret)) :
    ∃ m : Spec.Wire.Message, m.id = ((i + 1 : Nat) : Int) ∧ Among ((xs.take (i + 1)).flatMap (fun x => x.2.2)).flatten m ∧ Said x.1 m.op ret := by
  obtain ⟨m, h1, h2, h3⟩ := run_said reg own xs St.init [] good_init hs (by simpa using hp) i x bs ret hx hr
  refine ⟨m, ?_, by simpa using h2, h3⟩
  rw [h1]
  show ((1 + i : Nat) : Int) = _
  rw [Nat.add_comm]


open OverWireP in
/-- **C89 (`modify` of an object).** The other side may send anything. After any calls on an object: a `modify` that returns has either sent nothing, or it used the next message ID and among the octets
that the other side has sent is a modify response with that ID and the code for success. -/
theorem c89_modify {V R S : Type} (lower : Str → Str) (typeOf : TypeOf AVal) (peer : OverWire.Peer S) (said : S → Bytes) (hrec : Records said peer) (s0 : S) (h0 : said s0 = [])
    (hist : List (OverWire.Env V R × ObjCall AVal)) (env : OverWire.Env V R) (mods : List (Mod AVal)) :
    let w := World.after lower typeOf peer ⟨CIDict.empty, ⟨Session.St.init, s0⟩⟩ hist
    let r := callOver lower typeOf peer env w (.modify mods)
    r.2 = .ok () → Spec.Wire.Plain (said r.1.link.peer) →
      r.1.link = w.link ∨ ∃ m : Spec.Wire.Message, m.id = (w.link.st.next : Int) ∧ Among (said r.1.link.peer) m ∧ ∃ x, m.op = .modifyResponse x ∧ x.code = 0 := by
  intro w r hok hp
  obtain ⟨h1, h2⟩ := after_from lower typeOf peer said hrec hist _ (good_start lower said s0 h0)
  exact (modifyObj_from lower typeOf peer said hrec env w.link h1 w.obj h2 mods).2.2 hp hok

open OverWireP in
/-- **C89 (`refresh` of an object).** The other side may send anything. After any calls on an object: if a `refresh` returns, among the octets that the other side has sent are an entry and the end of a
search with the ID of the request; and every attribute of the object is as before or has the values that this entry gives for it. -/
theorem c89_refresh {V R S : Type} (lower : Str → Str) (typeOf : TypeOf AVal) (peer : OverWire.Peer S) (said : S → Bytes) (hrec : Records said peer) (s0 : S) (h0 : said s0 = [])
    (hist : List (OverWire.Env V R × ObjCall AVal)) (env : OverWire.Env V R) (hf : ∀ u, ∃ e, env.results.fetch u = ([], some e)) (attrs : List Str) :
    let w := World.after lower typeOf peer ⟨CIDict.empty, ⟨Session.St.init, s0⟩⟩ hist
    let r := callOver lower typeOf peer env w (.refresh attrs)
    r.2 = .ok () → Spec.Wire.Plain (said r.1.link.peer) → ∃ got, Found (said r.1.link.peer) w.link.st.next got ∧
      ∀ attr, AttrsDict.getAttr lower r.1.obj attr = AttrsDict.getAttr lower w.obj attr ∨ ∃ kv ∈ got, lower kv.1 = lower attr ∧ kv.2 = AttrsDict.getAttr lower r.1.obj attr := by
  intro w r hok hp
  obtain ⟨h1, h2⟩ := after_from lower typeOf peer said hrec hist _ (good_start lower said s0 h0)
  obtain ⟨_, k2⟩ := refresh_from lower peer said hrec env w.link h1 w.obj h2 attrs
  simp only [r, callOver, OverWire.refreshObj] at hok hp ⊢
  rcases hx : OverWire.refresh codec (fun d => d.1.1) peer env lower w.link w.obj attrs with ⟨l', e | d'⟩
  · rw [hx] at hok; cases hok
  · rw [hx] at hp k2
    exact (k2 d' rfl).2 hf hp

namespace AnsweredP

theorem plain_short (b : Bytes) (h : b.length < 119) : Spec.Wire.Plain b := by
  refine ⟨by omega, fun p q e => ?_⟩
  have := congrArg List.length e
  simp only [List.length_append, List.length_cons, List.length_replicate] at this
  omega

/-- any peer, with a record of what it has sent -/
def recorded {S : Type} (peer : OverWire.Peer S) : OverWire.Peer (S × Bytes) := fun s bs => (((peer s.1 bs).1, s.2 ++ (peer s.1 bs).2.flatten), (peer s.1 bs).2)

theorem recorded_ok {S : Type} (peer : OverWire.Peer S) : Records Prod.snd (recorded peer) := fun _ _ => rfl

/-- a deletion, and a comparison whose answer comes in two pieces -/
def calls : List (Call × Option (List Controls.Wire) × List Bytes) :=
  [(.delete (str "o"), none, [[0x30, 12, 2, 1, 1, 0x6B, 7, 10, 1, 0, 4, 0, 4, 0]]), (.compare (str "o") (str "cn") (str "a"), none, [[0x30, 12, 2, 1, 2, 0x6F, 7, 10, 1, 5], [4, 0, 4, 0]])]

/-- C89 for them -/
example : ∃ m : Spec.Wire.Message, m.id = 2 ∧ Among [0x30, 12, 2, 1, 1, 0x6B, 7, 10, 1, 0, 4, 0, 4, 0, 0x30, 12, 2, 1, 2, 0x6F, 7, 10, 1, 5, 4, 0, 4, 0] m ∧
    Said (.compare (str "o") (str "cn") (str "a")) m.op (.truth false) :=
  c89_session ({} : Controls.Reg Unit Unit) [] calls (fun x hx => by
    simp only [calls, List.mem_cons, List.not_mem_nil, or_false] at hx
    rcases hx with rfl | rfl <;> trivial) (plain_short _ (by decide)) 1 _ (some [0x30, 17, 2, 1, 2, 0x6E, 12, 4, 1, 0x6F, 0x30, 7, 4, 2, 0x63, 0x6E, 4, 1, 0x61]) (.truth false) rfl (by decide +kernel)

def env : OverWire.Env Unit Unit := { OverWireP.sampleEnv with results := ⟨{}, true, true, [], [], fun _ => ([], some .osError)⟩ }

open OverWireP in
theorem has_answer {V R S : Type} (lower : Str → Str) (typeOf : TypeOf AVal) (peer : OverWire.Peer S) (said : S → Bytes) (hrec : Records said peer) (s0 : S) (h0 : said s0 = [])
    (hist : List (OverWire.Env V R × ObjCall AVal)) (env : OverWire.Env V R) (mods : List (Mod AVal)) (n : Nat) (w : World S) (r : World S × Except Err Unit)
    (hw : w = World.after lower typeOf peer ⟨CIDict.empty, ⟨Session.St.init, s0⟩⟩ hist) (hr : r = callOver lower typeOf peer env w (.modify mods))
    (hok : r.2 = .ok ()) (hp : Spec.Wire.Plain (said r.1.link.peer)) (hn : w.link.st.next = n) (hne : r.1.link.st.next ≠ n) :
      ∃ m : Spec.Wire.Message, m.id = (n : Int) ∧ Among (said r.1.link.peer) m ∧ ∃ x, m.op = .modifyResponse x ∧ x.code = 0 := by
  subst hn hr hw
  rcases c89_modify lower typeOf peer said hrec s0 h0 hist env mods hok hp with h | h
  · exact absurd (congrArg (fun l => l.st.next) h) hne
  · exact h

open OverWireP in
def sampleMods : List (Mod AVal) := [⟨.add, str "cn", .list [.text (str "y")]⟩]
open OverWireP in
def sampleHist : List (OverWire.Env Unit Unit × ObjCall AVal) := [(env, .refresh [str "cn"])]
open OverWireP in
def sampleWorld : World (List Bytes × Bytes) := World.after lc (fun _ => .ok .default) (recorded script) ⟨CIDict.empty, ⟨Session.St.init, ([], [])⟩⟩ sampleHist
open OverWireP in
def sampleAfter : World (List Bytes × Bytes) × Except Err Unit := callOver lc (fun _ => .ok .default) (recorded script) env sampleWorld (.modify sampleMods)

set_option maxRecDepth 100000 in
open OverWireP in
/-- C89 for an object that is refreshed and then changed -/
example : (∃ got, Found sampleWorld.link.peer.2 1 got ∧ ∀ attr, AttrsDict.getAttr lc sampleWorld.obj attr = [] ∨ ∃ kv ∈ got, lc kv.1 = lc attr ∧ kv.2 = AttrsDict.getAttr lc sampleWorld.obj attr) ∧
    ∃ m : Spec.Wire.Message, m.id = 2 ∧ Among sampleAfter.1.link.peer.2 m ∧ ∃ x, m.op = .modifyResponse x ∧ x.code = 0 := by
  refine ⟨?_, ?_⟩
  · exact c89_refresh lc (fun _ => .ok .default) (recorded script) Prod.snd (recorded_ok script) ([], []) rfl [] env (fun _ => ⟨_, rfl⟩) [str "cn"] (by decide +kernel) (plain_short _ (by decide +kernel))
  · have hok : sampleAfter.2 = .ok () := by decide +kernel
    have hlen : sampleAfter.1.link.peer.2.length < 119 := by decide +kernel
    have hn : sampleWorld.link.st.next = 2 := by decide +kernel
    have hne : sampleAfter.1.link.st.next ≠ 2 := by decide +kernel
    exact has_answer lc (fun _ => .ok .default) (recorded script) Prod.snd (recorded_ok script) ([], []) rfl sampleHist env sampleMods 2 sampleWorld sampleAfter rfl rfl hok (plain_short _ hlen) hn hne

end AnsweredP

/-- **C89 (an intermediate response).** "Who am I?" returns what an intermediate response says, as if it were the answer. -/
theorem c89_intermediate : (Session.run codec (fun d => d.1.1) ({} : Controls.Reg Unit Unit) [] St.init
    [(.extended (str "1.3.6.1.4.1.4203.1.11.3") none, none, [[0x30, 8, 2, 1, 1, 0x79, 3, 0x81, 1, 0x61]])]).map Prod.snd = [.returns (.text (str "a"))] := by
  decide +kernel

/-- **C89 (an answer before its request).** What arrives during the first call, with the ID that the second will have, is taken as the answer to the second, which was sent later. -/
theorem c89_early_answer : (Session.run codec (fun d => d.1.1) ({} : Controls.Reg Unit Unit) [] St.init
    [(.delete (str "o"), none, [[0x30, 12, 2, 1, 2, 0x6B, 7, 10, 1, 0, 4, 0, 4, 0, 0x30, 12, 2, 1, 1, 0x6B, 7, 10, 1, 0, 4, 0, 4, 0]]), (.delete (str "p"), none, [])]).map Prod.snd =
      [.returns .done, .returns .done] := by
  decide +kernel

set_option maxRecDepth 100000 in
/-- **C89 (another entry).** An object for `cn=x` takes over the attributes of an entry for `cn=y`, if that is what comes back. -/
theorem c89_other_entry : AnsweredP.env.obj.dn = str "cn=x" ∧
    let r := OverWireP.callOver lc (fun _ => .ok .default) (fun (_ : Unit) _ => ((), [[48, 24, 2, 1, 1, 100, 19, 4, 4, 99, 110, 61, 121, 48, 11, 48, 9, 4, 2, 99, 110, 49, 3, 4, 1, 121, 48, 12, 2, 1, 1, 101, 7, 10, 1, 0, 4, 0, 4, 0]]))
      AnsweredP.env ⟨CIDict.empty, ⟨Session.St.init, ()⟩⟩ (.refresh [str "cn"])
    r.2 = .ok () ∧ AttrsDict.getAttr lc r.1.obj (str "cn") = [.text (str "y")] := by
  decide +kernel

end Laurelin.Props
