import Verif.Model.Net
/-!
# C23: responses are routed to their request, complete and in order
-/
namespace Laurelin.Props
open Laurelin Laurelin.Net

variable {B M : Type}

/-! ## Vocabulary of the statements -/

/-- What the server sent with message id `w`, in order. -/
def sentFor (C : Codec B M) (sent : List M) (w : Nat) : List M := sent.filter (fun m => C.mid m = w)

/-- What came out of readers asking for id `w`, in order. -/
def deliveredTo (log : List (Nat × Out M)) (w : Nat) : List M :=
  log.filterMap (fun e => match e with
    | (i, .yields m) => if i = w then some m else none
    | _ => none)

/-- Reader `i` is suspended at the last message of a queue that has been removed since, and a newer queue for
its id exists: it will not look at that queue before it has read from the socket again. -/
def Stale (w : World B M) (i : Nat) : Prop :=
  ∃ want g raw g' q, w.readers[i]? = some (want, .flushing g raw) ∧ w.sock.queues want = some (g', q) ∧ g' ≠ g

/-- A reader is only advanced while no other reader sits on bytes it has received but not decoded,
while it is not `Stale`, and while it is not already waiting for bytes that never come (that call never returned). -/
def Disciplined (C : Codec B M) : World B M → List Ev → Prop
  | _, [] => True
  | w, .open i :: es => Disciplined C (w.step C (.open i)).1 es
  | w, .advance i :: es =>
    (∀ (j : Nat) (r : Nat × Phase B), j ≠ i → w.readers[j]? = some r → r.2.raw = []) ∧ ¬ Stale w i ∧
      (∀ want raw, w.readers[i]? ≠ some (want, .waiting raw)) ∧
      Disciplined C (w.step C (.advance i)).1 es

/-! ## Lemmas -/

/-- the messages waiting in the queue of an id -/
def qs (s : Sock B M) (w : Nat) : List M := match s.queues w with | some (_, q) => q | none => []

/-- no empty queue is kept in the dict -/
def WF (s : Sock B M) : Prop := ∀ w g, s.queues w ≠ some (g, [])

theorem qs_enqueue (s : Sock B M) (i : Nat) (m : M) (w : Nat) :
    qs (s.enqueue i m) w = qs s w ++ (if w = i then [m] else []) := by
  unfold Sock.enqueue qs
  by_cases hw : w = i
  · subst hw
    cases h : s.queues w <;> simp
  · cases s.queues i <;> simp [hw]

theorem wf_enqueue (s : Sock B M) (i : Nat) (m : M) (h : WF s) : WF (s.enqueue i m) := by
  intro w g
  have := h w g
  unfold Sock.enqueue
  cases hq : s.queues i with
  | none => simp only []; split <;> simp_all
  | some p => simp only []; split <;> simp_all

theorem enqueue_chunks (s : Sock B M) (i : Nat) (m : M) : (s.enqueue i m).chunks = s.chunks := by
  unfold Sock.enqueue; split <;> rfl

theorem enqueue_abandoned (s : Sock B M) (i : Nat) (m : M) : (s.enqueue i m).abandoned = s.abandoned := by
  unfold Sock.enqueue; split <;> rfl

theorem pop_spec (s : Sock B M) (i : Nat) (h : WF s) :
    (s.pop i = none ∧ qs s i = []) ∨
    ∃ m g s', s.pop i = some (m, g, s') ∧ WF s' ∧ s'.chunks = s.chunks ∧ s'.abandoned = s.abandoned ∧
      ∀ w, qs s w = (if w = i then [m] else []) ++ qs s' w := by
  unfold Sock.pop
  cases hq : s.queues i with
  | none => left; simp [qs, hq]
  | some p =>
    obtain ⟨g, q⟩ := p
    cases q with
    | nil => exact absurd hq (h i g)
    | cons m q =>
      right
      refine ⟨m, g, _, rfl, ?_, rfl, rfl, ?_⟩
      · intro w g'
        have := h w g'
        simp only []
        split
        · split <;> simp_all
        · exact this
      · intro w
        by_cases hw : w = i
        · subst hw
          cases q <;> simp [qs, hq]
        · simp [qs, hw]

/-- what the decode loop does on a byte string that continues to a sequence of messages -/
theorem decodeLoop_spec (C : Codec B M) (want : Nat) (n : Nat) (raw tail : List B) (rest : List M) (s : Sock B M)
    (hn : raw.length ≤ n) (hb : raw ++ tail = rest.flatMap C.enc) (h0 : ∀ m ∈ rest, C.mid m ≠ 0) (hwf : WF s)
    (hq : qs s want = []) :
    ∃ s' : Sock B M, WF s' ∧ s'.chunks = s.chunks ∧ s'.abandoned = s.abandoned ∧ qs s' want = [] ∧
    ((∃ m raw' rest', decodeLoop C want n raw s = .yields m raw' s' ∧ raw' ++ tail = rest'.flatMap C.enc ∧
        (∀ x ∈ rest', C.mid x ≠ 0) ∧
        ∀ w, qs s w ++ sentFor C rest w = (if w = want then [m] else []) ++ qs s' w ++ sentFor C rest' w) ∨
     (∃ raw' rest', (decodeLoop C want n raw s = .underrun raw' s' ∨ (raw' = [] ∧ decodeLoop C want n raw s = .drained s')) ∧
        raw' ++ tail = rest'.flatMap C.enc ∧ (∀ x ∈ rest', C.mid x ≠ 0) ∧
        (∀ w, qs s w ++ sentFor C rest w = qs s' w ++ sentFor C rest' w) ∧
        (tail = [] → rest' = []))) := by
  induction n generalizing raw rest s with
  | zero =>
    have : raw = [] := List.length_eq_zero_iff.mp (by omega)
    subst this
    refine ⟨s, hwf, rfl, rfl, hq, .inr ⟨[], rest, .inr ⟨rfl, by simp [decodeLoop]⟩, hb, h0, fun w => rfl, ?_⟩⟩
    intro ht; subst ht
    cases rest with
    | nil => rfl
    | cons m rest => simp [C.enc_ne] at hb
  | succ n ih =>
    cases raw with
    | nil =>
      refine ⟨s, hwf, rfl, rfl, hq, .inr ⟨[], rest, .inr ⟨rfl, by simp [decodeLoop]⟩, hb, h0, fun w => rfl, ?_⟩⟩
      intro ht; subst ht
      cases rest with
      | nil => rfl
      | cons m rest => simp [C.enc_ne] at hb
    | cons b raw =>
      cases rest with
      | nil => simp at hb
      | cons m rest =>
        simp only [List.flatMap_cons] at hb
        have hm : C.mid m ≠ 0 := h0 m (by simp)
        have h0' : ∀ x ∈ rest, C.mid x ≠ 0 := fun x hx => h0 x (List.mem_cons_of_mem _ hx)
        have hcase : (∃ c p, C.enc m = (b :: raw) ++ c :: p) ∨
            ∃ p, b :: raw = C.enc m ++ p ∧ p ++ tail = rest.flatMap C.enc := by
          rcases List.append_eq_append_iff.mp hb with ⟨p, hp1, hp2⟩ | ⟨p, hp1, hp2⟩
          · cases p with
            | nil => exact .inr ⟨[], by simpa using hp1.symm, by simpa using hp2⟩
            | cons c p => exact .inl ⟨c, p, hp1⟩
          · exact .inr ⟨p, hp1, hp2.symm⟩
        rcases hcase with ⟨c, p, he⟩ | ⟨p, hp1, hp2⟩
        · have hd : C.dec (b :: raw) = none := C.dec_short m _ (c :: p) (by simp) he
          refine ⟨s, hwf, rfl, rfl, hq, .inr ⟨b :: raw, m :: rest, .inl (by simp [decodeLoop, hd]), ?_, h0, fun w => rfl, ?_⟩⟩
          · simpa using hb
          · intro ht
            have := congrArg List.length hb
            rw [he, ht] at this
            simp at this
        · have hd : C.dec (b :: raw) = some (m, p) := by rw [hp1]; exact C.dec_enc m p
          by_cases hw : C.mid m = want
          · refine ⟨s, hwf, rfl, rfl, hq, .inl ⟨m, p, rest, by simp [decodeLoop, hd, hw], hp2, h0', ?_⟩⟩
            intro w
            by_cases h : w = want
            · subst h
              simp [sentFor, hq, hw]
            · have : C.mid m ≠ w := fun e => h (by rw [← e, hw])
              simp [sentFor, h, this]
          · have hlen : p.length ≤ n := by
              have := congrArg List.length hp1
              have he : (C.enc m).length ≠ 0 := fun h => C.enc_ne m (List.length_eq_zero_iff.mp h)
              simp only [List.length_cons, List.length_append] at this
              simp only [List.length_cons] at hn
              omega
            have hqm : ∀ w, qs (s.enqueue (C.mid m) m) w = qs s w ++ (if w = C.mid m then [m] else []) :=
              fun w => qs_enqueue s (C.mid m) m w
            have hsent : ∀ w, qs s w ++ sentFor C (m :: rest) w = qs (s.enqueue (C.mid m) m) w ++ sentFor C rest w := by
              intro w
              rw [hqm]
              by_cases h : w = C.mid m
              · subst h; simp [sentFor]
              · have : C.mid m ≠ w := fun e => h e.symm
                simp [sentFor, h, this]
            obtain ⟨s', w1, w2, w3, w4, w5⟩ := ih p rest (s.enqueue (C.mid m) m) hlen hp2 h0' (wf_enqueue _ _ _ hwf)
              (by rw [hqm]; simp [hq, Ne.symm hw])
            have hloop : decodeLoop C want (n + 1) (b :: raw) s = decodeLoop C want n p (s.enqueue (C.mid m) m) := by
              simp [decodeLoop, hd, hw, hm]
            refine ⟨s', w1, by rw [w2, enqueue_chunks], by rw [w3, enqueue_abandoned], w4, ?_⟩
            rw [hloop]
            rcases w5 with ⟨m', raw', rest', a, b', c, d⟩ | ⟨raw', rest', a, b', c, d, e⟩
            · exact .inl ⟨m', raw', rest', a, b', c, fun w => by rw [hsent, d]⟩
            · exact .inr ⟨raw', rest', a, b', c, fun w => by rw [hsent, d], e⟩

/-- what a reader that runs to its next `yield` does -/
def GoodNext (C : Codec B M) (want : Nat) (missing : List B) (rest : List M) (s : Sock B M)
    (r : Out M × Phase B × Sock B M) : Prop :=
  WF r.2.2 ∧ r.2.2.abandoned = [] ∧ (r.2.1.raw ≠ [] → qs r.2.2 want = []) ∧
  r.2.1 ≠ .finished ∧ (∀ raw, r.2.1 = .top raw → raw = []) ∧ (∀ g raw, r.2.1 = .flushing g raw → raw = []) ∧
  ∃ rest', r.2.1.raw ++ r.2.2.chunks.flatten ++ missing = rest'.flatMap C.enc ∧ (∀ x ∈ rest', C.mid x ≠ 0) ∧
    ((∃ m, r.1 = .yields m ∧
        ∀ w, qs s w ++ sentFor C rest w = (if w = want then [m] else []) ++ qs r.2.2 w ++ sentFor C rest' w) ∨
     (r.1 = .blocked ∧ (∀ w, qs s w ++ sentFor C rest w = qs r.2.2 w ++ sentFor C rest' w) ∧
        qs s want = [] ∧ (missing = [] → rest' = []) ∧ qs r.2.2 want = []))

theorem outer_spec (C : Codec B M) (want : Nat) (cs : List (List B)) (flush : Bool) (raw missing : List B) (rest : List M)
    (s : Sock B M) (hb : raw ++ cs.flatten ++ missing = rest.flatMap C.enc) (h0 : ∀ m ∈ rest, C.mid m ≠ 0) (hwf : WF s)
    (hab : s.abandoned = []) (hf : if flush then raw = [] else qs s want = []) (hshort : cs = [] → missing = [] → rest = []) :
    GoodNext C want missing rest s (outer C want flush raw s cs) := by
  have hpop : (∃ m g s', (if flush then s.pop want else none) = some (m, g, s') ∧ flush = true ∧ WF s' ∧ s'.chunks = s.chunks ∧
      s'.abandoned = s.abandoned ∧ ∀ w, qs s w = (if w = want then [m] else []) ++ qs s' w) ∨
      ((if flush then s.pop want else none) = none ∧ qs s want = []) := by
    cases flush with
    | false => exact .inr ⟨rfl, hf⟩
    | true =>
      rcases pop_spec s want hwf with ⟨a, b⟩ | ⟨m, g, s', a, b⟩
      · exact .inr ⟨a, b⟩
      · exact .inl ⟨m, g, s', a, rfl, b⟩
  induction cs generalizing flush raw rest s with
  | nil =>
    rcases hpop with ⟨m, g, s', hp, hfl, h1, h2, h3, h4⟩ | ⟨hp, hq⟩
    · subst hfl
      simp only [if_true] at hf
      subst hf
      rw [outer, hp]
      refine ⟨h1, by rw [← hab]; exact h3, by simp [Phase.raw], by simp, by simp, by simp, rest, by simpa [Phase.raw] using hb, h0, .inl ⟨m, rfl, ?_⟩⟩
      intro w
      show _ = _ ++ qs s' w ++ _
      rw [h4]
    · rw [outer, hp]; simp only [hab, List.not_mem_nil, if_false]
      refine ⟨hwf, rfl, fun _ => hq, by simp, by simp, by simp, rest, by simpa [Phase.raw] using hb, h0, .inr ⟨rfl, fun w => rfl, hq, hshort rfl, hq⟩⟩
  | cons c cs ih =>
    rcases hpop with ⟨m, g, s', hp, hfl, h1, h2, h3, h4⟩ | ⟨hp, hq⟩
    · subst hfl
      simp only [if_true] at hf
      subst hf
      rw [outer, hp]
      refine ⟨h1, by rw [← hab]; exact h3, by simp [Phase.raw], by simp, by simp, by simp, rest, by simpa [Phase.raw] using hb, h0, .inl ⟨m, rfl, ?_⟩⟩
      intro w
      show _ = _ ++ qs s' w ++ _
      rw [h4]
    · have hb' : (raw ++ c) ++ (cs.flatten ++ missing) = rest.flatMap C.enc := by rw [← hb]; simp
      obtain ⟨s', w1, w2, w3, w4, w5⟩ := decodeLoop_spec C want _ (raw ++ c) (cs.flatten ++ missing) rest s (Nat.le_refl _) hb' h0 hwf hq
      rw [outer, hp]; simp only [hab, List.not_mem_nil, if_false]
      rcases w5 with ⟨m, raw', rest', a, b, d, e⟩ | ⟨raw', rest', a, b, d, e, f⟩
      · rw [a]
        refine ⟨w1, by rw [← hab]; exact w3, fun _ => w4, by simp, by simp, by simp, rest', by simpa [Phase.raw] using b, d, .inl ⟨m, rfl, e⟩⟩
      · have key : ∀ fl, (fl = true → raw' = []) → GoodNext C want missing rest s (outer C want fl raw' s' cs) := by
          intro fl hfl
          have := ih fl raw' rest' s' (by simpa using b) d w1 (by rw [w3, hab])
            (by cases fl with | false => exact w4 | true => exact hfl rfl)
            (by intro h1 h2; exact f (by simp [h1, h2]))
            (by
              right
              refine ⟨?_, w4⟩
              cases fl with
              | false => rfl
              | true =>
                rcases pop_spec s' want w1 with ⟨a, _⟩ | ⟨m, g, s2, _, _, _, _, h⟩
                · exact a
                · have := h want; rw [w4] at this; simp at this)
          obtain ⟨g1, g2, g3, g4, g5, gf, rest2, g6, g7, g8⟩ := this
          refine ⟨g1, g2, g3, g4, g5, gf, rest2, g6, g7, ?_⟩
          rcases g8 with ⟨m, x, y⟩ | ⟨x, y, z, t, u⟩
          · exact .inl ⟨m, x, fun w => by rw [e, y]⟩
          · exact .inr ⟨x, fun w => by rw [e, y], hq, t, u⟩
        rcases a with a | ⟨hr, a⟩
        · rw [a]; exact key false (by simp)
        · rw [a]; subst hr; exact key true (fun _ => rfl)


theorem flatMap_enc_nil (C : Codec B M) (rest : List M) (h : [] = rest.flatMap C.enc) : rest = [] := by
  cases rest with
  | nil => rfl
  | cons m rest => simp [C.enc_ne] at h

/-- what a suspended reader satisfies -/
def ReaderOk (s : Sock B M) (r : Nat × Phase B) : Prop :=
  (r.2.raw ≠ [] → qs s r.1 = []) ∧ (∀ raw, r.2 = .top raw → raw = []) ∧ (∀ g raw, r.2 = .flushing g raw → raw = []) ∧
  r.2 ≠ .finished

theorem next_spec (C : Codec B M) (want : Nat) (p : Phase B) (s : Sock B M) (missing : List B) (rest : List M)
    (hb : p.raw ++ s.chunks.flatten ++ missing = rest.flatMap C.enc) (h0 : ∀ m ∈ rest, C.mid m ≠ 0) (hwf : WF s)
    (hab : s.abandoned = []) (hok : ReaderOk s (want, p)) (hnw : ∀ raw, p ≠ .waiting raw)
    (hst : ∀ g raw g' q, p = .flushing g raw → s.queues want = some (g', q) → g' = g) :
    GoodNext C want missing rest s (next C want p s) := by
  obtain ⟨k1, k2, k3, k4⟩ := hok
  cases p with
  | finished => exact absurd rfl k4
  | waiting raw => exact absurd rfl (hnw raw)
  | top raw =>
    have := k2 raw rfl
    subst this
    exact outer_spec C want s.chunks true [] missing rest s hb h0 hwf hab (by simp)
      (by intro h1 h2; rw [h1, h2] at hb; exact flatMap_enc_nil C rest (by simpa [Phase.raw] using hb))
  | flushing g raw =>
    have := k3 g raw rfl
    subst this
    have hsh : s.chunks = [] → missing = [] → rest = [] := by
      intro h1 h2; rw [h1, h2] at hb; exact flatMap_enc_nil C rest (by simpa [Phase.raw] using hb)
    simp only [next]
    cases hq : s.queues want with
    | none => exact outer_spec C want s.chunks false [] missing rest s hb h0 hwf hab (by simp [qs, hq]) hsh
    | some e =>
      obtain ⟨g', q⟩ := e
      have := hst g [] g' q rfl hq
      simp only [this, if_true]
      exact outer_spec C want s.chunks true [] missing rest s hb h0 hwf hab (by simp) hsh
  | decoding raw =>
    simp only [next]
    by_cases hr : raw = []
    · subst hr
      simp only [decodeLoop]
      exact outer_spec C want s.chunks true [] missing rest s hb h0 hwf hab (by simp)
        (by intro h1 h2; rw [h1, h2] at hb; exact flatMap_enc_nil C rest (by simpa [Phase.raw] using hb))
    · have hq : qs s want = [] := k1 hr
      have hb' : raw ++ (s.chunks.flatten ++ missing) = rest.flatMap C.enc := by rw [← hb]; simp [Phase.raw]
      obtain ⟨s', w1, w2, w3, w4, w5⟩ := decodeLoop_spec C want _ raw (s.chunks.flatten ++ missing) rest s (Nat.le_refl _) hb' h0 hwf hq
      rcases w5 with ⟨m, raw', rest', a, b, d, e⟩ | ⟨raw', rest', a, b, d, e, f⟩
      · rw [a]
        refine ⟨w1, by rw [← hab]; exact w3, fun _ => w4, by simp, by simp, by simp, rest', by simpa [Phase.raw, w2] using b, d, .inl ⟨m, rfl, e⟩⟩
      · have key : ∀ fl, (fl = true → raw' = []) → GoodNext C want missing rest s (outer C want fl raw' s' s'.chunks) := by
          intro fl hfl
          have := outer_spec C want s'.chunks fl raw' missing rest' s' (by rw [w2]; simpa using b) d w1 (by rw [w3, hab])
            (by cases fl with | false => exact w4 | true => exact hfl rfl)
            (by intro h1 h2; exact f (by rw [← w2]; simp [h1, h2]))
          obtain ⟨g1, g2, g3, g4, g5, gf, rest2, g6, g7, g8⟩ := this
          refine ⟨g1, g2, g3, g4, g5, gf, rest2, g6, g7, ?_⟩
          rcases g8 with ⟨m, x, y⟩ | ⟨x, y, z, t, u⟩
          · exact .inl ⟨m, x, fun w => by rw [e, y]⟩
          · exact .inr ⟨x, fun w => by rw [e, y], hq, t, u⟩
        rcases a with a | ⟨hr, a⟩
        · rw [a]; exact key false (by simp)
        · rw [a]; subst hr; exact key true (fun _ => rfl)

/-- at most one reader holds bytes -/
def Held (rs : List (Nat × Phase B)) (held : List B) : Prop :=
  (∃ i r, rs[i]? = some r ∧ r.2.raw = held ∧ ∀ (j : Nat) (r' : Nat × Phase B), j ≠ i → rs[j]? = some r' → r'.2.raw = []) ∨
  (held = [] ∧ ∀ (j : Nat) (r' : Nat × Phase B), rs[j]? = some r' → r'.2.raw = [])

theorem held_is (rs : List (Nat × Phase B)) (held : List B) (h : Held rs held) (i : Nat) (r : Nat × Phase B)
    (hi : rs[i]? = some r) (ho : ∀ (j : Nat) (r' : Nat × Phase B), j ≠ i → rs[j]? = some r' → r'.2.raw = []) : r.2.raw = held := by
  rcases h with ⟨k, r', hk, hh, ho'⟩ | ⟨h1, h2⟩
  · by_cases hki : k = i
    · subst hki; rw [hi] at hk; rw [← hh, Option.some.inj hk]
    · rw [ho' i r (Ne.symm hki) hi, ← hh, ho k r' hki hk]
  · rw [h1, h2 i r hi]

/-- everything sent for an id has been delivered, is queued for it, or is still in the undecoded bytes – in this order -/
structure Inv (C : Codec B M) (sent : List M) (missing : List B) (log : List (Nat × Out M)) (w : World B M) (rest : List M) : Prop where
  wf : WF w.sock
  ab : w.sock.abandoned = []
  ok : ∀ r ∈ w.readers, ReaderOk w.sock r
  ids : ∀ m ∈ rest, C.mid m ≠ 0
  held : ∃ held, Held w.readers held ∧ held ++ w.sock.chunks.flatten ++ missing = rest.flatMap C.enc
  flow : ∀ i, sentFor C sent i = deliveredTo log i ++ qs w.sock i ++ sentFor C rest i
  out : ∀ e ∈ log, (∃ m, e.2 = .yields m) ∨ e.2 = .blocked
  done : ∀ i, (i, .blocked) ∈ log → missing = [] → deliveredTo log i = sentFor C sent i

theorem deliveredTo_append (a b : List (Nat × Out M)) (i : Nat) : deliveredTo (a ++ b) i = deliveredTo a i ++ deliveredTo b i := by
  simp [deliveredTo]

theorem inv_step (C : Codec B M) (sent : List M) (missing : List B) (log : List (Nat × Out M)) (w : World B M) (rest : List M)
    (h : Inv C sent missing log w rest) (e : Ev) (hd : Disciplined C w [e]) :
    ∃ rest', Inv C sent missing (log ++ (w.step C e).2) (w.step C e).1 rest' := by
  cases e with
  | «open» want =>
    refine ⟨rest, ?_⟩
    simp only [World.step, List.append_nil]
    obtain ⟨h1, h2, h3, h4, ⟨held, h5, h6⟩, h7, h8, h9⟩ := h
    refine ⟨h1, h2, ?_, h4, ⟨held, ?_, h6⟩, h7, h8, h9⟩
    · intro r hr
      simp only [List.mem_append, List.mem_singleton] at hr
      rcases hr with hr | rfl
      · exact h3 r hr
      · simp [ReaderOk, Phase.raw]
    · have new : ∀ (j : Nat) (r' : Nat × Phase B), (w.readers ++ [(want, Phase.top [])])[j]? = some r' →
          w.readers[j]? = some r' ∨ r'.2.raw = [] := by
        intro j r' hj
        rw [List.getElem?_append] at hj
        split at hj
        · exact .inl hj
        · right
          rw [List.getElem?_singleton] at hj
          split at hj
          · rw [← Option.some.inj hj]; rfl
          · exact absurd hj (by simp)
      rcases h5 with ⟨i, r, a, b, c⟩ | ⟨a, b⟩
      · refine .inl ⟨i, r, ?_, b, ?_⟩
        · have : i < w.readers.length := by
            by_cases hlt : i < w.readers.length
            · exact hlt
            · rw [List.getElem?_eq_none (by omega)] at a; exact absurd a (by simp)
          rw [List.getElem?_append_left this]; exact a
        · intro j r' hj hr'
          rcases new j r' hr' with h' | h'
          · exact c j r' hj h'
          · exact h'
      · refine .inr ⟨a, ?_⟩
        intro j r' hr'
        rcases new j r' hr' with h' | h'
        · exact b j r' h'
        · exact h'
  | advance i =>
    obtain ⟨d1, d2, d3, _⟩ := hd
    obtain ⟨h1, h2, h3, h4, ⟨held, h5, h6⟩, h7, h8, h9⟩ := h
    cases hr : w.readers[i]? with
    | none =>
      refine ⟨rest, ?_⟩
      simp only [World.step, hr, List.append_nil]
      exact ⟨h1, h2, h3, h4, ⟨held, h5, h6⟩, h7, h8, h9⟩
    | some r =>
      obtain ⟨want, p⟩ := r
      have hraw := held_is _ _ h5 i (want, p) hr d1
      simp only at hraw
      have hmem : (want, p) ∈ w.readers := List.mem_of_getElem? hr
      have hn := next_spec C want p w.sock missing rest (by rw [hraw]; exact h6) h4 h1 h2 (h3 _ hmem)
        (fun raw hp => d3 want raw (by rw [hr, hp]))
        (by
          intro g raw g' q hp hq
          by_cases hg : g' = g
          · exact hg
          · exact absurd ⟨want, g, raw, g', q, by rw [hr, hp], hq, hg⟩ d2)
      simp only [World.step, hr]
      generalize hres : next C want p w.sock = res at hn
      obtain ⟨o, p', s'⟩ := res
      obtain ⟨g1, g2, g3, gf, g4, g5, rest', g6, g7, g8⟩ := hn
      simp only at g1 g2 g3 gf g4 g5 g6 g7 g8 ⊢
      have hilt : i < w.readers.length := by
        by_cases hlt : i < w.readers.length
        · exact hlt
        · rw [List.getElem?_eq_none (by omega)] at hr; exact absurd hr (by simp)
      have hflow : ∀ k, sentFor C sent k = deliveredTo (log ++ [(want, o)]) k ++ qs s' k ++ sentFor C rest' k := by
        intro k
        rw [h7 k, deliveredTo_append]
        rcases g8 with ⟨m, rfl, y⟩ | ⟨rfl, y, _⟩
        · rw [List.append_assoc, y k]
          by_cases hk : k = want
          · subst hk; simp [deliveredTo]
          · simp [deliveredTo, hk, Ne.symm hk]
        · rw [List.append_assoc, y k]
          simp [deliveredTo]
      refine ⟨rest', g1, g2, ?_, g7, ⟨p'.raw, ?_, g6⟩, hflow, ?_, ?_⟩
      · intro r hmem'
        obtain ⟨j, hj⟩ := List.mem_iff_getElem?.mp hmem'
        rw [List.getElem?_set] at hj
        by_cases hij : i = j
        · simp only [hij, if_true] at hj
          have : r = (want, p') := by
            split at hj
            · exact (Option.some.inj hj).symm
            · exact absurd hj (by simp)
          subst this
          exact ⟨g3, g4, g5, gf⟩
        · rw [if_neg hij] at hj
          have hraw' := d1 j r (Ne.symm hij) hj
          obtain ⟨k1, k2, k3, k4⟩ := h3 r (List.mem_of_getElem? hj)
          exact ⟨fun h => absurd hraw' h, k2, k3, k4⟩
      · refine .inl ⟨i, (want, p'), by simp [hilt], rfl, ?_⟩
        intro j r' hji hj
        rw [List.getElem?_set, if_neg (Ne.symm hji)] at hj
        exact d1 j r' hji hj
      · intro e he
        simp only [List.mem_append, List.mem_singleton] at he
        rcases he with he | rfl
        · exact h8 e he
        · rcases g8 with ⟨m, rfl, _⟩ | ⟨rfl, _⟩
          · exact .inl ⟨m, rfl⟩
          · exact .inr rfl
      · intro k hk hm
        simp only [List.mem_append, List.mem_singleton] at hk
        rcases hk with hk | hk
        · have a := h9 k hk hm
          have b := hflow k
          rw [deliveredTo_append, ← a] at b
          have hlen := congrArg List.length b
          simp only [List.length_append] at hlen
          have : deliveredTo [(want, o)] k = [] := List.length_eq_zero_iff.mp (by omega)
          rw [deliveredTo_append, this, a, List.append_nil]
        · simp only [Prod.mk.injEq] at hk
          obtain ⟨rfl, rfl⟩ := hk
          rcases g8 with ⟨m, hm', _⟩ | ⟨_, _, _, t, u⟩
          · exact absurd hm' (by simp)
          · have := hflow k
            rw [u, t hm] at this
            simpa [sentFor] using this.symm

theorem inv_run (C : Codec B M) (sent : List M) (missing : List B) (es : List Ev) (log : List (Nat × Out M)) (w : World B M)
    (rest : List M) (h : Inv C sent missing log w rest) (hd : Disciplined C w es) :
    ∃ rest', Inv C sent missing (log ++ (w.run C es).2) (w.run C es).1 rest' := by
  induction es generalizing log w rest with
  | nil => exact ⟨rest, by simpa [World.run] using h⟩
  | cons e es ih =>
    have hd1 : Disciplined C w [e] ∧ Disciplined C (w.step C e).1 es := by
      cases e with
      | «open» i => exact ⟨trivial, hd⟩
      | advance i => exact ⟨⟨hd.1, hd.2.1, hd.2.2.1, trivial⟩, hd.2.2.2⟩
    obtain ⟨r1, h1⟩ := inv_step C sent missing log w rest h e hd1.1
    obtain ⟨r2, h2⟩ := ih _ _ r1 h1 hd1.2
    exact ⟨r2, by simpa [World.run] using h2⟩

theorem inv_init (C : Codec B M) (sent : List M) (missing : List B) (chunks : List (List B))
    (hs : ∀ m ∈ sent, C.mid m ≠ 0) (hb : chunks.flatten ++ missing = sent.flatMap C.enc) :
    Inv C sent missing [] (World.init chunks) sent :=
  ⟨by intro w g; simp [World.init], rfl, by simp [World.init], hs,
    ⟨[], .inr ⟨rfl, by simp [World.init]⟩, by simpa [World.init] using hb⟩,
    by intro i; simp [deliveredTo, qs, World.init], by simp, by simp⟩

/-! ## C23 -/

/-- **C23 (partial).** Let the server send any messages, none of them unsolicited, and let its bytes arrive in any
chunks, possibly cut off.  For every disciplined interleaving of readers, what comes out of the readers of an id is an
initial part of what the server sent with that id, in order; no reader ends or fails; and if a reader has to wait although
everything has arrived, then everything sent with its id has been delivered.
Missing from the full property: interleavings that are not `Disciplined`, for which it is false (see below). -/
theorem c23_routing_partial (C : Codec B M) (sent : List M) (chunks : List (List B)) (missing : List B) (es : List Ev)
    (hs : ∀ m ∈ sent, C.mid m ≠ 0) (hb : chunks.flatten ++ missing = sent.flatMap C.enc)
    (hd : Disciplined C (World.init chunks) es) (log : List (Nat × Out M))
    (hlog : log = ((World.init chunks).run C es).2) (w : Nat) :
    deliveredTo log w <+: sentFor C sent w ∧
    (∀ e ∈ log, (∃ m, e.2 = .yields m) ∨ e.2 = .blocked) ∧
    ((w, .blocked) ∈ log → missing = [] → deliveredTo log w = sentFor C sent w) := by
  obtain ⟨rest', h⟩ := inv_run C sent missing es [] _ sent (inv_init C sent missing chunks hs hb) hd
  simp only [List.nil_append, ← hlog] at h
  refine ⟨⟨_, by rw [h.flow w, List.append_assoc]⟩, h.out, fun hw hm => h.done w hw hm⟩

/-- a reader whose id has no queue keeps that, and is never suspended in the flush loop -/
theorem decodeLoop_noqueue (C : Codec B M) (want n : Nat) (raw : List B) (s : Sock B M) (h : s.queues want = none) :
    (∀ m r s', decodeLoop C want n raw s = .yields m r s' → s'.queues want = none) ∧
    (∀ s', decodeLoop C want n raw s = .drained s' → s'.queues want = none) ∧
    (∀ r s', decodeLoop C want n raw s = .underrun r s' → s'.queues want = none) := by
  induction n generalizing raw s with
  | zero => cases raw <;> simp_all [decodeLoop]
  | succ n ih =>
    cases raw with
    | nil => simp_all [decodeLoop]
    | cons b raw =>
      unfold decodeLoop
      cases hd : C.dec (b :: raw) with
      | none => simp only []; refine ⟨by simp, by simp, ?_⟩; intro r s' e; cases e; exact h
      | some p =>
        obtain ⟨m, raw'⟩ := p
        simp only []
        by_cases hw : C.mid m = want
        · simp only [hw, if_true]; refine ⟨?_, by simp, by simp⟩; intro m r s' e; cases e; exact h
        · simp only [hw, if_false]
          by_cases h0 : C.mid m = 0
          · simp only [h0, if_true]; simp
          · simp only [h0, if_false]
            refine ih _ _ ?_
            unfold Sock.enqueue
            split <;> simp [Ne.symm hw, h]

theorem outer_noqueue (C : Codec B M) (want : Nat) (cs : List (List B)) (fl : Bool) (raw : List B) (s : Sock B M)
    (h : s.queues want = none) :
    ((outer C want fl raw s cs).2.2.queues want = none ∨ ∃ m, (outer C want fl raw s cs).1 = .unsolicited m) ∧
    ∀ g r, (outer C want fl raw s cs).2.1 ≠ .flushing g r := by
  induction cs generalizing fl raw s with
  | nil =>
    have : (if fl then s.pop want else none) = none := by cases fl <;> simp [Sock.pop, h]
    rw [outer, this]
    simp only []
    split <;> simp [h]
  | cons c cs ih =>
    have : (if fl then s.pop want else none) = none := by cases fl <;> simp [Sock.pop, h]
    rw [outer, this]
    simp only []
    split
    · simp [h]
    · have hd := decodeLoop_noqueue C want (raw ++ c).length (raw ++ c) s h
      cases hl : decodeLoop C want (raw ++ c).length (raw ++ c) s with
      | yields m r s' => simp [hd.1 _ _ _ hl]
      | unsolicited m s' => simp
      | drained s' => exact ih _ _ _ (hd.2.1 _ hl)
      | underrun r s' => exact ih _ _ _ (hd.2.2 _ _ hl)

theorem next_noqueue (C : Codec B M) (want : Nat) (p : Phase B) (s : Sock B M)
    (h : s.queues want = none) (hp : ∀ g r, p ≠ .flushing g r) :
    ((next C want p s).2.2.queues want = none ∨ ∃ m, (next C want p s).1 = .unsolicited m) ∧
    ∀ g r, (next C want p s).2.1 ≠ .flushing g r := by
  cases p with
  | finished => simp [next, h]
  | waiting r => simp [next, h]
  | top raw => exact outer_noqueue C want _ _ _ _ h
  | flushing g r => exact absurd rfl (hp g r)
  | decoding raw =>
    simp only [next]
    have hd := decodeLoop_noqueue C want raw.length raw s h
    cases hl : decodeLoop C want raw.length raw s with
    | yields m r s' => simp [hd.1 _ _ _ hl]
    | unsolicited m s' => simp
    | drained s' => exact outer_noqueue C want _ _ _ _ (hd.2.1 _ hl)
    | underrun r s' => exact outer_noqueue C want _ _ _ _ (hd.2.2 _ _ hl)

/-- `k` calls of `next` on a generator: the results (for as long as they are asked for). -/
def nexts (C : Codec B M) (want : Nat) : Nat → Phase B → Sock B M → List (Out M)
  | 0, _, _ => []
  | k + 1, p, s => (next C want p s).1 :: nexts C want k (next C want p s).2.1 (next C want p s).2.2

/-- **C23, one reader.** However the bytes are cut into chunks and whatever else is interleaved, iterating the messages of an
id on a connection gives exactly the messages the server sent with that id, in order, one per call. -/
theorem c23_single_reader (C : Codec B M) (sent : List M) (chunks : List (List B)) (want : Nat)
    (hs : ∀ m ∈ sent, C.mid m ≠ 0) (hb : chunks.flatten = sent.flatMap C.enc) :
    nexts C want (sentFor C sent want).length (.top []) (World.init (M := M) chunks).sock =
      (sentFor C sent want).map .yields := by
  suffices H : ∀ (n : Nat) (p : Phase B) (s : Sock B M) (rest : List M), (sentFor C rest want).length = n →
      p.raw ++ s.chunks.flatten = rest.flatMap C.enc → (∀ m ∈ rest, C.mid m ≠ 0) → WF s → s.abandoned = [] →
      ReaderOk s (want, p) → (∀ raw, p ≠ .waiting raw) → (∀ g r, p ≠ .flushing g r) → s.queues want = none →
      nexts C want n p s = (sentFor C rest want).map .yields from
    H _ _ _ sent rfl (by simpa [Phase.raw, World.init] using hb) hs (by intro w g; simp [World.init]) rfl
      (by simp [ReaderOk, Phase.raw]) (by simp) (by simp) rfl
  intro n
  induction n with
  | zero =>
    intro p s rest hl _ _ _ _ _ _ _ _
    rw [List.length_eq_zero_iff.mp hl]; rfl
  | succ n ih =>
    intro p s rest hl hb h0 hwf hab hok hnw hnf hq
    have hg := next_spec C want p s [] rest (by simpa using hb) h0 hwf hab hok hnw (fun g r _ _ h _ => absurd h (hnf g r))
    have hnq := next_noqueue C want p s hq hnf
    obtain ⟨g1, g2, g3, gf, g4, g5, rest', g6, g7, g8⟩ := hg
    have hqs : qs s want = [] := by simp [qs, hq]
    rcases g8 with ⟨m, ho, y⟩ | ⟨ho, y, _, t, u⟩
    · have hq' : (next C want p s).2.2.queues want = none := by
        rcases hnq.1 with h | ⟨m', h⟩
        · exact h
        · rw [ho] at h; exact absurd h (by simp)
      have hy := y want
      have hqs' : qs (next C want p s).2.2 want = [] := by simp [qs, hq']
      rw [hqs, hqs'] at hy
      simp only [List.nil_append, if_true, List.append_nil] at hy
      have hcons : sentFor C rest want = m :: sentFor C rest' want := by simpa using hy
      rw [hcons] at hl ⊢
      simp only [nexts, ho, List.map_cons, List.cons.injEq, true_and]
      refine ih _ _ rest' (by simpa using hl) (by simpa using g6) g7 g1 g2 ⟨g3, g4, g5, gf⟩ ?_ hnq.2 hq'
      intro raw hw
      -- a reader that yielded is not waiting
      have key : ∀ (fl : Bool) (cs : List (List B)) (raw : List B) (s : Sock B M) m' r, (outer C want fl raw s cs).1 = .yields m' → (outer C want fl raw s cs).2.1 ≠ .waiting r := by
        intro fl cs
        induction cs generalizing fl with
        | nil => intro raw s m' r; rw [outer]; split
                 · simp
                 · split <;> simp
        | cons c cs ihc =>
          intro raw s m' r; rw [outer]; split
          · simp
          · split
            · simp
            · split
              · simp
              · simp
              · exact ihc _ _ _ _ _
              · exact ihc _ _ _ _ _
      cases p with
      | finished => simp [next] at ho
      | waiting r => exact hnw r rfl
      | flushing g r => exact hnf g r rfl
      | top r => exact key _ _ _ _ _ _ ho hw
      | decoding r =>
        simp only [next] at ho hw
        split at ho <;> rename_i heq <;> simp only [heq] at hw
        · exact absurd hw (by simp)
        · exact absurd ho (by simp)
        · exact key _ _ _ _ _ _ ho hw
        · exact key _ _ _ _ _ _ ho hw
    · have := y want
      rw [hqs, u, t rfl] at this
      simp [sentFor] at this
      simp only [sentFor] at hl
      have hnil : rest.filter (fun m => C.mid m = want) = [] := List.filter_eq_nil_iff.mpr (by simpa using this)
      rw [hnil] at hl
      simp at hl

/-! ### `recv_one` -/

theorem outer_aligned (C : Codec B M) (want : Nat) (msgs : List M) (s : Sock B M) :
    ∃ k, (outer C want true [] s (msgs.map C.enc)).2.2.chunks = (msgs.drop k).map C.enc ∧
      (outer C want true [] s (msgs.map C.enc)).2.1.raw = [] := by
  induction msgs generalizing s with
  | nil =>
    refine ⟨0, ?_⟩
    simp only [List.map_nil, outer]
    split
    · simp [Phase.raw]
    · split <;> simp [Phase.raw]
  | cons m msgs ih =>
    simp only [List.map_cons, outer]
    split
    · exact ⟨0, by simp [Phase.raw]⟩
    · split
      · exact ⟨0, by simp [Phase.raw]⟩
      · have hd : C.dec (C.enc m) = some (m, []) := by simpa using C.dec_enc m []
        have hl : decodeLoop C want ([] ++ C.enc m).length ([] ++ C.enc m) s =
            if C.mid m = want then .yields m [] s else if C.mid m = 0 then .unsolicited m s
              else .drained (s.enqueue (C.mid m) m) := by
          simp only [List.nil_append]
          cases he : C.enc m with
          | nil => exact absurd he (C.enc_ne m)
          | cons b r =>
            rw [he] at hd
            simp only [List.length_cons, decodeLoop, hd]
        rw [hl]
        split
        · rename_i heq; split at heq
          · cases heq; exact ⟨1, by simp [Phase.raw]⟩
          · split at heq <;> exact absurd heq (by simp)
        · exact ⟨1, by simp [Phase.raw]⟩
        · rename_i s' heq
          obtain ⟨k, hk⟩ := ih s'
          exact ⟨k + 1, by simpa using hk⟩
        · rename_i heq; split at heq
          · exact absurd heq (by simp)
          · split at heq <;> exact absurd heq (by simp)

/-- A sequence of `recv_one` calls for the given ids. -/
def recvOnes (C : Codec B M) : List Nat → Sock B M → List (Nat × Out M)
  | [], _ => []
  | w :: ws, s => (w, (recvOne C w s).1) :: recvOnes C ws (recvOne C w s).2

/-- **C23, one-response operations (partial).** If every message arrives in a chunk of its own, any sequence of `recv_one` calls
hands each id what the server sent with it, in order, and a call has to wait only when all of that was delivered before.
Missing: chunks holding several messages, for which the property is false (`c23_recv_one_loses`). -/
theorem c23_recv_one_partial (C : Codec B M) (sent : List M) (ws : List Nat) (hs : ∀ m ∈ sent, C.mid m ≠ 0)
    (log : List (Nat × Out M)) (hlog : log = recvOnes C ws (World.init (sent.map C.enc)).sock) (w : Nat) :
    deliveredTo log w <+: sentFor C sent w ∧
    (∀ e ∈ log, (∃ m, e.2 = .yields m) ∨ e.2 = .blocked) ∧
    ((w, .blocked) ∈ log → deliveredTo log w = sentFor C sent w) := by
  subst hlog
  suffices H : ∀ (ws : List Nat) (s : Sock B M) (rest al : List M), WF s → s.abandoned = [] → (∀ m ∈ rest, C.mid m ≠ 0) →
      s.chunks = al.map C.enc → al.flatMap C.enc = rest.flatMap C.enc →
      deliveredTo (recvOnes C ws s) w <+: qs s w ++ sentFor C rest w ∧
      (∀ e ∈ recvOnes C ws s, (∃ m, e.2 = .yields m) ∨ e.2 = .blocked) ∧
      ((w, .blocked) ∈ recvOnes C ws s → deliveredTo (recvOnes C ws s) w = qs s w ++ sentFor C rest w) by
    have := H ws (World.init (sent.map C.enc)).sock sent sent (by intro w g; simp [World.init]) rfl hs rfl rfl
    simpa [World.init, qs] using this
  intro ws
  induction ws with
  | nil => intro s rest al _ _ _ _ _; simp [recvOnes, deliveredTo]
  | cons v ws ih =>
    intro s rest al hwf hab h0 hch hal
    have hflat : s.chunks.flatten = rest.flatMap C.enc := by rw [hch, ← hal, List.flatMap_def]
    have hg := next_spec C v (.top []) s [] rest (by simpa [Phase.raw] using hflat) h0 hwf hab (by simp [ReaderOk, Phase.raw]) (by simp) (by simp)
    obtain ⟨k, hk1, hk2⟩ := outer_aligned C v al s
    rw [← hch] at hk1 hk2
    change (next C v (.top []) s).2.2.chunks = _ at hk1
    change (next C v (.top []) s).2.1.raw = _ at hk2
    obtain ⟨g1, g2, g3, gf, g4, g5, rest', g6, g7, g8⟩ := hg
    rw [hk2, hk1] at g6
    have e1 : (recvOne C v s).1 = (next C v (.top []) s).1 := rfl
    have e2 : (recvOne C v s).2 = (next C v (.top []) s).2.2 := rfl
    obtain ⟨i1, i2, i3⟩ := ih (recvOne C v s).2 rest' (al.drop k) g1 g2 g7 hk1 (by simpa [List.flatMap_def] using g6)
    simp only [recvOnes]
    have happ : ∀ (x : Nat × Out M) l, deliveredTo (x :: l) w = deliveredTo [x] w ++ deliveredTo l w :=
      fun x l => deliveredTo_append [x] l w
    rw [happ]
    rw [e2] at i1 i2 i3
    rw [e1, e2]
    rcases g8 with ⟨m, ho, y⟩ | ⟨ho, y, z, t, u⟩
    · rw [ho, y w]
      have hd : deliveredTo [(v, Out.yields m)] w = if w = v then [m] else [] := by
        by_cases h : w = v
        · subst h; simp [deliveredTo]
        · simp [deliveredTo, h, Ne.symm h]
      rw [hd]
      refine ⟨?_, ?_, ?_⟩
      · rw [List.append_assoc]; exact (List.prefix_append_right_inj _).mpr i1
      · intro e he
        rcases List.mem_cons.mp he with rfl | he
        · exact .inl ⟨m, rfl⟩
        · exact i2 e he
      · intro h
        rcases List.mem_cons.mp h with h | h
        · exact absurd h (by simp)
        · rw [i3 h, List.append_assoc]
    · rw [ho, y w]
      have hd : deliveredTo [(v, (Out.blocked : Out M))] w = [] := by simp [deliveredTo]
      rw [hd, List.nil_append]
      refine ⟨i1, ?_, ?_⟩
      · intro e he
        rcases List.mem_cons.mp he with rfl | he
        · exact .inr rfl
        · exact i2 e he
      · intro h
        rcases List.mem_cons.mp h with h | h
        · cases h
          rw [u, t rfl]
          have := i1
          rw [u, t rfl] at this
          simpa [sentFor] using this
        · exact i3 h

/-- **C23, unsolicited messages:** a message with id 0 is reported as `LDAPUnsolicitedMessage` by the call that decodes it,
after the messages before it in the same chunk have been queued. -/
theorem c23_unsolicited (C : Codec B M) (want : Nat) (hw : want ≠ 0) (pre : List M) (m : M) (r : List B) (cs : List (List B))
    (hpre : ∀ x ∈ pre, C.mid x ≠ want ∧ C.mid x ≠ 0) (hm : C.mid m = 0) (s : Sock B M) (hwf : WF s) (hab : s.abandoned = [])
    (hq : qs s want = []) (hc : s.chunks = (pre.flatMap C.enc ++ C.enc m ++ r) :: cs) :
    (recvOne C want s).1 = .unsolicited m ∧ ∀ w, qs (recvOne C want s).2 w = qs s w ++ sentFor C pre w := by
  have hpop : s.pop want = none := by
    rcases pop_spec s want hwf with ⟨a, _⟩ | ⟨m, g, s2, _, _, _, _, h⟩
    · exact a
    · have := h want; rw [hq] at this; simp at this
  suffices H : ∀ (pre : List M) (n : Nat) (s : Sock B M), (∀ x ∈ pre, C.mid x ≠ want ∧ C.mid x ≠ 0) →
      (pre.flatMap C.enc ++ C.enc m ++ r).length ≤ n →
      ∃ s', decodeLoop C want n (pre.flatMap C.enc ++ C.enc m ++ r) s = .unsolicited m s' ∧ ∀ w, qs s' w = qs s w ++ sentFor C pre w by
    obtain ⟨s', h1, h2⟩ := H pre _ s hpre (Nat.le_refl _)
    simp only [recvOne, next, hc, outer, hpop, if_true, hab, List.not_mem_nil, if_false, List.nil_append, h1]
    exact ⟨trivial, h2⟩
  clear hpop hc hwf hab hq hpre
  intro pre
  induction pre with
  | nil =>
    intro n s _ hn
    simp only [List.flatMap_nil, List.nil_append] at hn ⊢
    cases he : C.enc m ++ r with
    | nil => simp [C.enc_ne] at he
    | cons b l =>
      rw [he] at hn
      cases n with
      | zero => simp at hn
      | succ n =>
        have hd : C.dec (b :: l) = some (m, r) := by rw [← he]; exact C.dec_enc m r
        refine ⟨s, ?_, by simp [sentFor]⟩
        simp [decodeLoop, hd, hm, Ne.symm hw]
  | cons x pre ih =>
    intro n s hp hn
    have e : (x :: pre).flatMap C.enc ++ C.enc m ++ r = C.enc x ++ (pre.flatMap C.enc ++ C.enc m ++ r) := by simp
    rw [e] at hn ⊢
    have hlen : (C.enc x).length ≠ 0 := fun h => C.enc_ne x (List.length_eq_zero_iff.mp h)
    cases hl : C.enc x ++ (pre.flatMap C.enc ++ C.enc m ++ r) with
    | nil => simp [C.enc_ne] at hl
    | cons b l =>
      cases n with
      | zero => rw [hl] at hn; simp at hn
      | succ n =>
        have hd : C.dec (b :: l) = some (x, pre.flatMap C.enc ++ C.enc m ++ r) := by rw [← hl]; exact C.dec_enc _ _
        have hx := hp x (by simp)
        rw [List.length_append] at hn
        obtain ⟨s', h1, h2⟩ := ih n (s.enqueue (C.mid x) x) (fun y hy => hp y (List.mem_cons_of_mem _ hy)) (by omega)
        refine ⟨s', ?_, ?_⟩
        · simp only [decodeLoop, hd, hx.1, hx.2, if_false, h1]
        · intro w
          rw [h2, qs_enqueue]
          by_cases h : w = C.mid x
          · subst h; simp [sentFor]
          · simp [sentFor, h, Ne.symm h]

/-! ### A concrete codec, examples and the cases where C23 fails -/

/-- two-byte messages: id and payload -/
def toyCodec : Codec Nat (Nat × Nat) where
  enc m := [m.1, m.2]
  dec
    | a :: b :: r => some ((a, b), r)
    | _ => none
  mid m := m.1
  enc_ne := by simp
  dec_enc := by simp
  dec_short := by
    rintro ⟨a, b⟩ p q hq h
    match p, q with
    | [], _ => rfl
    | [x], _ => rfl
    | x :: y :: p, [] => exact absurd rfl hq
    | x :: y :: p, z :: q => simp at h

/-- `c23_single_reader` on messages cut in the middle, interleaved with another id. -/
example : nexts toyCodec 1 2 (.top []) (World.init [[1], [10, 2], [20, 1, 11]]).sock = [.yields (1, 10), .yields (1, 11)] := by decide

/-- `c23_routing_partial` applies to two interleaved readers: -/
example : Disciplined toyCodec (World.init [[1], [10], [2, 20, 1, 11]])
    [.open 1, .advance 0, .open 2, .advance 1, .advance 1] ∧
    ((World.init [[1], [10], [2, 20, 1, 11]]).run toyCodec [.open 1, .advance 0, .open 2, .advance 1]).2 =
      [(1, .yields (1, 10)), (2, .yields (2, 20))] := by
  refine ⟨⟨?_, ?_, ?_, ?_, ?_, ?_, ?_, ?_, ?_, trivial⟩, by decide⟩
  · intro j r hj hr
    have : j < 1 := by
      by_cases h : j < 1
      · exact h
      · rw [show ((World.init [[1], [10], [2, 20, 1, 11]] : World Nat (Nat × Nat)).step toyCodec (.open 1)).1.readers = [(1, .top [])] from rfl,
          List.getElem?_eq_none (by simp; omega)] at hr
        exact absurd hr (by simp)
    omega
  · rintro ⟨want, g, raw, g', q, h1, h2, h3⟩
    exact absurd h2 (by simp [World.init, World.step])
  · intro want raw h
    simp [World.init, World.step] at h
  · intro j r hj hr
    match j with
    | 0 => cases hr; decide
    | j + 2 => cases hr
  · rintro ⟨want, g, raw, g', q, h1, h2, h3⟩
    cases h1
  · intro want raw h
    cases h
  · intro j r hj hr
    match j with
    | 0 => cases hr; decide
    | j + 2 => cases hr
  · rintro ⟨want, g, raw, g', q, h1, h2, h3⟩
    cases h1
  · intro want raw h
    cases h

/-- **C23 fails for `recv_one` (finding):** when one chunk holds the responses of two requests, the first `recv_one` throws the second
response away; the second call waits for ever. -/
theorem c23_recv_one_loses : recvOnes toyCodec [1, 2] (World.init [[1, 10, 2, 20]]).sock = [(1, .yields (1, 10)), (2, .blocked)] := by decide

/-- **C23 fails for two interleaved readers (finding):** bytes received by one reader are invisible to the other. Message 2 is cut;
reader 1 holds its first byte, reader 2 gets the rest and never sees it. -/
theorem c23_split_lost :
    ((World.init [[1, 10, 2], [20], [2, 21]]).run toyCodec [.open 1, .open 2, .advance 0, .advance 1]).2 =
      [(1, .yields (1, 10)), (2, .blocked)] ∧
    [[1, 10, 2], [20], [2, 21]].flatten = [(1, 10), (2, 20), (2, 21)].flatMap toyCodec.enc := by decide

/-- **C23 fails even with one message per chunk (finding):** a reader that took the last message of its queue does not see the
queue created after that, reads the socket instead and delivers 12 before 11. -/
theorem c23_reordered :
    ((World.init [[1, 10], [2, 20], [1, 11], [2, 21], [1, 12]]).run toyCodec
      [.open 2, .advance 0, .open 1, .advance 1, .advance 0, .advance 1, .advance 1]).2 =
      [(2, .yields (2, 20)), (1, .yields (1, 10)), (2, .yields (2, 21)), (1, .yields (1, 12)), (1, .yields (1, 11))] := by decide

/-- **Finding:** end of file is not noticed: however often `recv` returns the empty string, the reader asks again. -/
theorem c23_eof_ignored (C : Codec B M) (want n : Nat) :
    (recvOne C want (World.init (M := M) (List.replicate n [])).sock).1 = .blocked := by
  have : ∀ (n : Nat) (s : Sock B M), s.queues want = none → s.abandoned = [] →
      (outer C want true [] s (List.replicate n [])).1 = .blocked := by
    intro n
    induction n with
    | zero => intro s h1 h2; simp [outer, Sock.pop, h1, h2]
    | succ n ih => intro s h1 h2; simpa [List.replicate, outer, Sock.pop, h1, h2, decodeLoop] using ih s h1 h2
  exact this n _ rfl rfl

end Laurelin.Props
