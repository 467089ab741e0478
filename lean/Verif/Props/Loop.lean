import Verif.Props.LoopCall
/-!
# C99 calls made while the results of a search are iterated
-/
set_option linter.unusedSectionVars false
namespace Laurelin.Props
open Laurelin Codec Asn1 Rfc4511 Spec
namespace LoopP
open Laurelin.Wire WireP WireR OverWire OverWireP Spec.OverWireS Spec.DirectoryS DirP Spec.LoopS
section
variable {V R S D : Type} {dir : Directory D} {contents : S → D} {peer : Peer S} (env : Api.Env V R)

/-- what is encoded -/
abbrev encs (ms : List Received.Decoded) : Bytes := ms.flatMap codec.enc

/-- The reader of request `n`, at its phase, has these messages still to come: those it holds, and either those that wait to be received, or those in the queue. -/
structure Inv (n : Nat) (ms : List Received.Decoded) (ph : Net.Phase UInt8) (st : Session.St Received.Decoded) : Prop where
  id : n < st.next
  own : ∀ m ∈ ms, codec.mid m = n
  rest : ∃ gs, Pend gs st ∧
    ((∃ mr, ms = mr ++ gs.flatten ∧ (ph = .decoding (encs mr) ∨ (ph = .top [] ∧ mr = [])) ∧ st.sock.queues n = none ∧ ∀ g ∈ gs, g ≠ [] ∧ ∀ d ∈ g, codec.mid d = n) ∨
     (∃ mr mq, ms = mr ++ mq ∧ (∀ g ∈ gs, ∀ d ∈ g, codec.mid d ≠ n) ∧
      ((mq = [] ∧ st.sock.queues n = none ∧ (mr ≠ [] → ph = .decoding (encs mr))) ∨
       (mq ≠ [] ∧ ∃ g, st.sock.queues n = some (g, mq) ∧ (ph = .decoding (encs mr) ∨ (ph = .top [] ∧ mr = []) ∨ (ph = .flushing g [] ∧ mr = []))))))

theorem decode_one (n : Nat) (m : Received.Decoded) (hm : codec.mid m = n) (mr : List Received.Decoded) (s : Net.Sock UInt8 Received.Decoded) :
    Net.decodeLoop codec n (encs (m :: mr)).length (encs (m :: mr)) s = .yields m (encs mr) s := by
  refine (decodeLoop_first codec n m hm s (encs (m :: mr)) ?_).2 (encs mr) rfl
  simp only [encs, List.flatMap_cons]
  intro h
  exact codec.enc_ne m (List.append_eq_nil_iff.1 h).1

theorem next_held (n : Nat) (m : Received.Decoded) (hm : codec.mid m = n) (mr : List Received.Decoded) (s : Net.Sock UInt8 Received.Decoded) :
    Net.next codec n (.decoding (encs (m :: mr))) s = (.yields m, .decoding (encs mr), s) := by
  simp only [Net.next, decode_one n m hm mr s]

/-- a reader that holds nothing goes on with its queue or with what arrives -/
theorem next_empty (n : Nat) (ph : Net.Phase UInt8) (s : Net.Sock UInt8 Received.Decoded) (h : ph = .decoding [] ∨ ph = .top []) : Net.next codec n ph s = Net.outer codec n true [] s s.chunks := by
  rcases h with rfl | rfl
  · simp only [Net.next, Net.decodeLoop]
  · rfl

theorem outer_pop (n g : Nat) (m : Received.Decoded) (mq : List Received.Decoded) (s : Net.Sock UInt8 Received.Decoded) (h : s.queues n = some (g, m :: mq)) :
    Net.outer codec n true [] s s.chunks = (.yields m, .flushing g [], { s with queues := fun j => if j = n then (if mq = [] then none else some (g, mq)) else s.queues j }) := by
  have hpop : s.pop n = some (m, g, { s with queues := fun j => if j = n then (if mq = [] then none else some (g, mq)) else s.queues j }) := by simp only [Net.Sock.pop, h]
  cases hc : s.chunks with
  | nil => rw [Net.outer]; simp only [if_true, hpop, ← hc]
  | cons c cs => rw [Net.outer]; simp only [if_true, hpop, ← hc]

theorem inv_next {n : Nat} {m : Received.Decoded} {ms : List Received.Decoded} {ph : Net.Phase UInt8} {st : Session.St Received.Decoded} (h : Inv n (m :: ms) ph st) :
    ∃ ph' s', Net.next codec n ph st.sock = (.yields m, ph', s') ∧ Inv n ms ph' { st with sock := s' } := by
  have hm := h.own m List.mem_cons_self
  have hown : ∀ x ∈ ms, codec.mid x = n := fun x hx => h.own x (List.mem_cons_of_mem _ hx)
  obtain ⟨gs, hp, hcase⟩ := h.rest
  rcases hcase with ⟨mr, e, hph, hq, hg⟩ | ⟨mr, mq, e, hg, hcase⟩
  · cases mr with
    | cons m' mr =>
      simp only [List.cons_append, List.cons.injEq] at e
      obtain ⟨rfl, e⟩ := e
      rcases hph with rfl | ⟨_, h0⟩
      · exact ⟨_, _, next_held n m hm mr _, ⟨h.id, hown, gs, hp, .inl ⟨mr, e, .inl rfl, hq, hg⟩⟩⟩
      · cases h0
    | nil =>
      rw [List.nil_append] at e
      match gs, hp, hg, e with
      | [] :: gs, hp, hg, e => exact absurd rfl (hg [] List.mem_cons_self).1
      | (m' :: g0) :: gs, hp, hg, e =>
        simp only [List.flatten_cons, List.cons_append, List.cons.injEq] at e
        obtain ⟨rfl, e⟩ := e
        have hch := hp.chunks
        rw [List.map_cons] at hch
        have hpop : st.sock.pop n = none := by simp [Net.Sock.pop, hq]
        refine ⟨.decoding (encs g0), { st.sock with chunks := gs.map (fun g => g.flatMap codec.enc) }, ?_, ⟨h.id, hown, gs, ⟨hp.pos, rfl, fun g hg' => hp.ids g (List.mem_cons_of_mem _ hg'), hp.abandoned, hp.queues⟩, .inl ⟨g0, e, .inl rfl, hq, fun g hg' => hg g (List.mem_cons_of_mem _ hg')⟩⟩⟩
        rw [next_empty n ph _ (hph.imp id And.left), hch, Net.outer]
        simp only [if_true, hpop, hp.abandoned, List.not_mem_nil, if_false, List.nil_append]
        rw [show Net.decodeLoop codec n ((m :: g0).flatMap codec.enc).length ((m :: g0).flatMap codec.enc) st.sock = _ from decode_one n m hm g0 _]
        simp only [hp.abandoned]
  · cases mr with
    | cons m' mr =>
      simp only [List.cons_append, List.cons.injEq] at e
      obtain ⟨rfl, e⟩ := e
      have hdec : ph = .decoding (encs (m :: mr)) := by
        rcases hcase with ⟨_, _, h3⟩ | ⟨_, g, _, h3 | ⟨_, h3⟩ | ⟨_, h3⟩⟩
        · exact h3 nofun
        · exact h3
        · cases h3
        · cases h3
      refine ⟨_, _, (by rw [hdec]; exact next_held n m hm mr _), ⟨h.id, hown, gs, hp, .inr ⟨mr, mq, e, hg, ?_⟩⟩⟩
      rcases hcase with ⟨h1, h2, h3⟩ | ⟨h1, g, h2, _⟩
      · exact .inl ⟨h1, h2, fun _ => rfl⟩
      · exact .inr ⟨h1, g, h2, .inl rfl⟩
    | nil =>
      rw [List.nil_append] at e
      rcases hcase with ⟨h1, _, _⟩ | ⟨h1, g, h2, h3⟩
      · rw [h1] at e; cases e
      · subst e
        refine ⟨.flushing g [], { st.sock with queues := fun j => if j = n then (if ms = [] then none else some (g, ms)) else st.sock.queues j }, ?_, ⟨h.id, hown, gs, ⟨hp.pos, hp.chunks, hp.ids, hp.abandoned, ?_⟩, .inr ⟨[], ms, rfl, hg, ?_⟩⟩⟩
        · rcases h3 with rfl | ⟨rfl, _⟩ | ⟨rfl, _⟩
          · exact (next_empty n _ _ (.inl rfl)).trans (outer_pop n g m ms _ h2)
          · exact (next_empty n _ _ (.inr rfl)).trans (outer_pop n g m ms _ h2)
          · simp only [Net.next, h2, if_true, outer_pop n g m ms _ h2]
        · intro j hj
          have hne : j ≠ n := by have := h.id; have hj' : st.next ≤ j := hj; omega
          simp only [if_neg hne]
          exact hp.queues j hj
        · cases ms with
          | nil => exact .inl ⟨rfl, by simp, fun h => absurd rfl h⟩
          | cons x xs => exact .inr ⟨nofun, g, by simp, .inr (.inr ⟨rfl, rfl⟩)⟩

/-- the connection after a call, where whole messages of earlier requests wait to be received -/
theorem pend_call (hs : Serves dir contents peer) (hw : Whole peer) (gs : List (List Received.Decoded)) (l : Link Received.Decoded S) (h : Pend gs l.st) (c : Api.Call V) :
    ∃ gs', Pend gs' (Api.call codec (fun d => d.1.1) peer env l c).1.st := by
  obtain ⟨_, ⟨n, h1, h2⟩ | ⟨n, gs', h1, h2, h3⟩⟩ := nested (contents := contents) (dir := dir) env hs hw gs l h c
  · exact ⟨gs, by rw [h2]; exact h.later n h1⟩
  · obtain ⟨f1, _, f3⟩ := enqAll_facts codec gs.flatten l.st.sock
    refine ⟨gs', ?_⟩
    rw [h2]
    refine ⟨Nat.lt_of_lt_of_le h.pos h1, rfl, fun g hg d hd => ⟨Nat.lt_of_lt_of_le h.pos (h3 g hg d hd).1, (h3 g hg d hd).2⟩, f1.trans h.abandoned, fun j hj => (f3 j ?_).trans (h.queues j (Nat.le_trans h1 hj))⟩
    intro d hd
    obtain ⟨g, hg, hdg⟩ := List.mem_flatten.1 hd
    have := (h.ids g hg d hdg).2
    have hj' : n ≤ j := hj
    omega

theorem inv_call (hs : Serves dir contents peer) (hw : Whole peer) {n : Nat} {ms : List Received.Decoded} {ph : Net.Phase UInt8} (l : Link Received.Decoded S) (h : Inv n ms ph l.st) (c : Api.Call V) :
    Inv n ms ph (Api.call codec (fun d => d.1.1) peer env l c).1.st := by
  obtain ⟨gs, hp, hcase⟩ := h.rest
  have hid := h.id
  obtain ⟨_, ⟨k, h1, h2⟩ | ⟨k, gs', h1, h2, h3⟩⟩ := nested (contents := contents) (dir := dir) env hs hw gs l hp c
  · rw [h2]
    exact ⟨Nat.lt_of_lt_of_le hid h1, h.own, gs, hp.later k h1, hcase⟩
  · obtain ⟨f1, _, f3⟩ := enqAll_facts codec gs.flatten l.st.sock
    rw [h2]
    refine ⟨Nat.lt_of_lt_of_le hid h1, h.own, gs', ?_, .inr ?_⟩
    · refine ⟨Nat.lt_of_lt_of_le hp.pos h1, rfl, fun g hg d hd => ⟨Nat.lt_of_lt_of_le hp.pos (h3 g hg d hd).1, (h3 g hg d hd).2⟩, f1.trans hp.abandoned, fun j hj => (f3 j ?_).trans (hp.queues j (Nat.le_trans h1 hj))⟩
      intro d hd
      obtain ⟨g, hg, hdg⟩ := List.mem_flatten.1 hd
      have := (hp.ids g hg d hdg).2
      have hj' : k ≤ j := hj
      omega
    · have hne : ∀ g ∈ gs', ∀ d ∈ g, codec.mid d ≠ n := fun g hg d hd => by have := (h3 g hg d hd).1; omega
      rcases hcase with ⟨mr, e, hph, hq, hg⟩ | ⟨mr, mq, e, hg, hcase⟩
      · refine ⟨mr, gs.flatten, e, hne, ?_⟩
        rcases enqAll_new codec n gs.flatten l.st.sock (fun d hd => by obtain ⟨g, hg', hdg⟩ := List.mem_flatten.1 hd; exact (hg g hg').2 d hdg) hq with ⟨k1, k2⟩ | ⟨k1, g, k2⟩
        · refine .inl ⟨k1, k2, fun hmr => ?_⟩
          rcases hph with h | ⟨_, h⟩
          · exact h
          · exact absurd h hmr
        · refine .inr ⟨k1, g, k2, ?_⟩
          rcases hph with h | h
          · exact .inl h
          · exact .inr (.inl h)
      · refine ⟨mr, mq, e, hne, ?_⟩
        have hsame : (setC (gs'.map (fun g => g.flatMap codec.enc)) (enqAll codec l.st.sock gs.flatten)).queues n = l.st.sock.queues n :=
          f3 n (fun d hd => by obtain ⟨g, hg', hdg⟩ := List.mem_flatten.1 hd; exact hg g hg' d hdg)
        show (mq = [] ∧ (setC (gs'.map (fun g => g.flatMap codec.enc)) (enqAll codec l.st.sock gs.flatten)).queues n = none ∧ _) ∨ (mq ≠ [] ∧ ∃ g, (setC (gs'.map (fun g => g.flatMap codec.enc)) (enqAll codec l.st.sock gs.flatten)).queues n = some (g, mq) ∧ _)
        rw [hsame]
        exact hcase

/-! ## The body -/

theorem happens_append {d d1 d2 : D} {l1 l2 : List (Api.Made V R)} (h1 : Happens dir d l1 d1) (h2 : Happens dir d1 l2 d2) : Happens dir d (l1 ++ l2) d2 := by
  induction h1 with
  | none d => exact h2
  | «then» e _ ih => exact .then e (ih h2)

/-- what calls made one after the other have in common -/
structure Did (dir : Directory D) (contents : S → D) (l l' : Link Received.Decoded S) (made made' : List (Api.Made V R)) : Prop where
  new : ∃ new, made' = made ++ new ∧ Happens dir (contents l.peer) new (contents l'.peer)
  settled : (∃ gs, Pend gs l.st) → ∃ gs, Pend gs l'.st
  inv : ∀ n ms ph, Inv n ms ph l.st → Inv n ms ph l'.st

theorem Did.refl (l : Link Received.Decoded S) (made : List (Api.Made V R)) : Did dir contents l l made made := ⟨⟨[], by simp, .none _⟩, id, fun _ _ _ h => h⟩

theorem Did.trans {l l1 l2 : Link Received.Decoded S} {made made1 made2 : List (Api.Made V R)} (h1 : Did dir contents l l1 made made1) (h2 : Did dir contents l1 l2 made1 made2) : Did dir contents l l2 made made2 := by
  obtain ⟨n1, e1, k1⟩ := h1.new
  obtain ⟨n2, e2, k2⟩ := h2.new
  exact ⟨⟨n1 ++ n2, by rw [e2, e1, List.append_assoc], happens_append k1 k2⟩, h2.settled ∘ h1.settled, fun n ms ph h => h2.inv n ms ph (h1.inv n ms ph h)⟩

theorem call_did (hs : Serves dir contents peer) (hw : Whole peer) (env : Api.Env V R) (l : Link Received.Decoded S) (hp : ∃ gs, Pend gs l.st) (c : Api.Call V) (made : List (Api.Made V R)) :
    Did dir contents l (Api.call codec (fun d => d.1.1) peer env l c).1 made (made ++ [((env, c), (Api.call codec (fun d => d.1.1) peer env l c).2)]) := by
  obtain ⟨gs, hp⟩ := hp
  exact ⟨⟨_, rfl, .then (nested env hs hw gs l hp c).1 (.none _)⟩, fun _ => pend_call env hs hw gs l hp c, fun n ms ph h => inv_call env hs hw l h c⟩

theorem runCalls_did (hs : Serves dir contents peer) (hw : Whole peer) (fs : List (List (Api.Made V R) → Option (Api.Env V R × Api.Call V))) : ∀ (l : Link Received.Decoded S) (made : List (Api.Made V R)), (∃ gs, Pend gs l.st) →
    Did dir contents l (Api.runCalls codec (fun d => d.1.1) peer l made fs).1 made (Api.runCalls codec (fun d => d.1.1) peer l made fs).2 ∧ Calls made fs (Api.runCalls codec (fun d => d.1.1) peer l made fs).2 := by
  induction fs with
  | nil => exact fun l made _ => ⟨.refl _ _, .none _⟩
  | cons f fs ih =>
    intro l made hp
    rw [Api.runCalls]
    cases hf : f made with
    | none =>
      obtain ⟨h1, h2⟩ := ih l made hp
      exact ⟨h1, .skips hf h2⟩
    | some ec =>
      have hc := call_did hs hw ec.1 l hp ec.2 made
      obtain ⟨h1, h2⟩ := ih (Api.call codec (fun d => d.1.1) peer ec.1 l ec.2).1 (made ++ [(ec, (Api.call codec (fun d => d.1.1) peer ec.1 l ec.2).2)]) (hc.settled hp)
      exact ⟨hc.trans h1, .makes _ hf h2⟩

/-! ## The loop -/

def finOf : Search.Ending → Api.Ended
  | .stop => .stop
  | .raised e => .raised e
  | .waiting => .running

/-- a loop over entries -/
theorem loop_runs (hs : Serves dir contents peer) (hw : Whole peer) (n : Nat) (senv : Search.Env V R Received.Entry) (own : List Str) (reserved : Bool) (body : Api.Body V R) (last : Received.Decoded) (code : Nat)
    (hdone : Received.searchMsg last.1.1 = some (.done code [] [])) (h10 : code ≠ 10) (es : List Received.Entry) :
    ∀ (ds : List Received.Decoded) (fuel : Nat) (tag : Option Bool) (ph : Net.Phase UInt8) (l : Link Received.Decoded S) (made : List (Api.Made V R)),
    ds.map (fun d => Received.searchMsg d.1.1) = (es.map (fun e => Search.Msg.entry e [])).map some → Inv n (ds ++ [last]) ph l.st →
    let r := Api.loop codec (fun d => d.1.1) peer n senv own reserved body fuel tag ph l made
    let o := Search.iterate senv tag ⟨own, []⟩ (es.map (fun e => Search.Msg.entry e []) ++ [.done code [] []])
    let its := if reserved && !es.isEmpty then [] else o.yields
    let fin := if reserved && !es.isEmpty then .raised .typeError else finOf o.ending
    (∃ new, r.made = made ++ new ∧ Happens dir (contents l.peer) new (contents r.link.peer)) ∧ (∃ gs, Pend gs r.link.st) ∧
    (∃ b, Ran body made r.items r.made b ∧ (b = true ↔ r.ended = .left)) ∧
    ((r.ended = fin ∧ r.items = its ∧ fin ≠ .left ∧ fin ≠ .running) ∨ ((r.ended = .left ∨ (r.ended = .running ∧ fuel ≤ es.length)) ∧ r.items <+: its)) := by
  induction es with
  | nil =>
    intro ds fuel tag ph l made hds hinv r o its fin
    obtain rfl : ds = [] := by simpa using hds
    obtain ⟨gs, hp, _⟩ := hinv.rest
    cases fuel with
    | zero => exact ⟨⟨[], by simp [r, Api.loop], .none _⟩, ⟨gs, hp⟩, ⟨false, .none _, by simp [r, Api.loop]⟩, .inr ⟨.inr ⟨rfl, Nat.le_refl _⟩, List.nil_prefix⟩⟩
    | succ fuel =>
      obtain ⟨ph', s', h1, h2⟩ := inv_next hinv
      obtain ⟨gs', hp', _⟩ := h2.rest
      have hr : r = ⟨⟨{ l.st with sock := s' }, l.peer⟩, [], made, finOf o.ending⟩ ∧ finOf o.ending ≠ .left ∧ finOf o.ending ≠ .running ∧ o.yields = [] := by
        simp only [r, o, Api.loop, h1, hdone, Api.isEntry, Bool.and_false, Bool.false_eq_true, if_false, List.map_nil, List.nil_append, Search.iterate, Search.rcSuccess, Search.rcNoSuchObject, Search.rcReferral, if_neg h10, Controls.handleResponse]
        by_cases hc : code = 0 ∨ code = 32
        · simp only [if_pos hc, Api.runBody, Bool.false_eq_true, if_false, finOf]
          exact ⟨trivial, nofun, nofun, trivial⟩
        · simp only [if_neg hc, Api.runBody, Bool.false_eq_true, if_false, finOf]
          exact ⟨trivial, nofun, nofun, trivial⟩
      obtain ⟨hr, f1, f2, f3⟩ := hr
      rw [hr]
      refine ⟨⟨[], by simp, .none _⟩, ⟨gs', hp'⟩, ⟨false, .none _, ⟨nofun, fun h => absurd h f1⟩⟩, .inl ⟨?_, ?_, ?_⟩⟩
      · simp [fin]
      · simp [its, f3]
      · simp only [fin, List.isEmpty_nil, Bool.not_true, Bool.and_false, Bool.false_eq_true, if_false]
        exact ⟨f1, f2⟩
  | cons e es ih =>
    intro ds fuel tag ph l made hds hinv r o its fin
    match ds, hds, hinv with
    | d :: ds, hds, hinv =>
    simp only [List.map_cons, List.cons.injEq] at hds
    obtain ⟨hd, hds⟩ := hds
    obtain ⟨gs, hp, _⟩ := hinv.rest
    cases fuel with
    | zero => exact ⟨⟨[], by simp [r, Api.loop], .none _⟩, ⟨gs, hp⟩, ⟨false, .none _, by simp [r, Api.loop]⟩, .inr ⟨.inr ⟨rfl, Nat.zero_le _⟩, List.nil_prefix⟩⟩
    | succ fuel =>
      obtain ⟨ph', s', h1, h2⟩ := inv_next hinv
      obtain ⟨gs', hp', _⟩ := h2.rest
      cases hres : reserved with
      | true =>
        have hr : r = ⟨⟨{ l.st with sock := s' }, l.peer⟩, [], made, .raised .typeError⟩ := by
          simp only [r, Api.loop, h1, hd, hres, Api.isEntry, Bool.and_true, if_true]
        rw [hr]
        simp only [its, fin, hres, List.isEmpty_cons, Bool.not_false, Bool.and_true, if_true]
        exact ⟨⟨[], by simp, .none _⟩, ⟨gs', hp'⟩, ⟨false, .none _, ⟨nofun, nofun⟩⟩, .inl ⟨trivial, trivial, nofun, nofun⟩⟩
      | false =>
        by_cases ht : tag = some true
        · have hr : r = ⟨⟨{ l.st with sock := s' }, l.peer⟩, [], made, .raised .tagError⟩ := by
            simp only [r, Api.loop, h1, hd, hres, Bool.false_and, Bool.false_eq_true, if_false, Search.iterate, if_pos ht, Api.runBody]
          have ho : o.yields = [] ∧ o.ending = .raised .tagError := by
            simp only [o, List.map_cons, List.cons_append, Search.iterate, if_pos ht]
            exact ⟨trivial, trivial⟩
          rw [hr]
          simp only [its, fin, hres, Bool.false_and, Bool.false_eq_true, if_false, ho.1, ho.2, finOf]
          exact ⟨⟨[], by simp, .none _⟩, ⟨gs', hp'⟩, ⟨false, .none _, ⟨nofun, nofun⟩⟩, .inl ⟨trivial, trivial, nofun, nofun⟩⟩
        · have ho : o = (Search.iterate senv (tag.map fun _ => true) ⟨own, []⟩ (es.map (fun e => Search.Msg.entry e []) ++ [.done code [] []])).after [.entry e []] := by
            simp only [o, List.map_cons, List.cons_append, Search.iterate, if_neg ht, Controls.handleResponse]
          obtain ⟨k1, k2⟩ := runCalls_did hs hw (body.calls (.entry e [])) ⟨{ l.st with sock := s' }, l.peer⟩ made ⟨gs', hp'⟩
          rcases hb : Api.runCalls codec (fun d => d.1.1) peer ⟨{ l.st with sock := s' }, l.peer⟩ made (body.calls (.entry e [])) with ⟨l1, made1⟩
          rw [hb] at k1 k2
          dsimp only at k1 k2
          cases hleave : body.leave made1 (.entry e []) with
          | true =>
            have hr : r = ⟨l1, [.entry e []], made1, .left⟩ := by
              simp only [r, Api.loop, h1, hd, hres, Bool.false_and, Bool.false_eq_true, if_false, Search.iterate, if_neg ht, Controls.handleResponse, Search.Out.after, List.append_nil, Api.runBody, hb, hleave, if_true]
            rw [hr]
            obtain ⟨new, e1, e2⟩ := k1.new
            refine ⟨⟨new, e1, e2⟩, k1.settled ⟨gs', hp'⟩, ⟨true, .left k2 hleave, by simp⟩, .inr ⟨.inl rfl, ?_⟩⟩
            simp only [its, hres, Bool.false_and, Bool.false_eq_true, if_false, ho, Search.Out.after]
            exact ⟨_, rfl⟩
          | false =>
            have hr : r = { Api.loop codec (fun d => d.1.1) peer n senv own reserved body fuel (tag.map fun _ => true) ph' l1 made1 with
                items := .entry e [] :: (Api.loop codec (fun d => d.1.1) peer n senv own reserved body fuel (tag.map fun _ => true) ph' l1 made1).items } := by
              simp only [r, Api.loop, h1, hd, hres, Bool.false_and, Bool.false_eq_true, if_false, Search.iterate, if_neg ht, Controls.handleResponse, Search.Out.after, List.append_nil, Api.runBody, hb, hleave, Api.isEntry, if_true]
              rfl
            obtain ⟨⟨new2, e3, e4⟩, g2, ⟨b, g3, g4⟩, g5⟩ := ih ds fuel (tag.map fun _ => true) ph' l1 made1 hds (k1.inv _ _ _ h2)
            rw [hr]
            obtain ⟨new, e1, e2⟩ := k1.new
            refine ⟨⟨new ++ new2, ?_, happens_append e2 e4⟩, g2, ⟨b, .goes k2 hleave g3, g4⟩, ?_⟩
            · rw [← List.append_assoc, ← e1]; exact e3
            · simp only [its, fin, hres, Bool.false_and, Bool.false_eq_true, if_false, ho, Search.Out.after] at g5 ⊢
              rcases g5 with ⟨q1, q2, q3, q4⟩ | ⟨q1, q2⟩
              · exact .inl ⟨q1, by rw [q2]; rfl, q3, q4⟩
              · refine .inr ⟨q1.imp id (fun h => ⟨h.1, Nat.succ_le_succ h.2⟩), ?_⟩
                exact List.cons_prefix_cons.2 ⟨rfl, q2⟩

/-- what a search returns when its results are listed at once -/
theorem listed (hs : Serves dir contents peer) (gs : List (List Received.Decoded)) (l : Link Received.Decoded S) (hp : Pend gs l.st) (a : SearchArgs V) (sent : SearchSent V) (bs : Bytes) (hsr : ldapSearch env.conn a = .ok sent)
    (hsend : send l.st.next (Call.search sent.req).op sent.ctrls = some bs) (es : List Received.Entry) (code : Nat) (h10 : code ≠ 10) (ds : List Received.Decoded) (last : Received.Decoded)
    (hcome : Comes l.st.next (peer l.peer bs).2 (es.map (fun e => Search.Msg.entry e [])) code ds last) :
    let o := Search.iterate { env.results with fetchRefs := sent.fetchRefs, follow := sent.follow } (if sent.objKwds.any (fun kv => decide (kv.1 = str "tag")) then some env.tagUsed else none) ⟨env.handleOwn, []⟩
      (es.map (fun e => Search.Msg.entry e []) ++ [.done code [] []])
    (Api.searchAll codec (fun d => d.1.1) peer env l a).2 = if Api.reservedKwd sent.objKwds && !es.isEmpty then .error .typeError else match finOf o.ending with
      | .stop => .ok o.yields
      | .raised e => .error e
      | _ => .error .osError := by
  intro o
  rw [(searchAll_rel env hs gs l hp l ⟨settle gs l.st, l.peer⟩ (.inr ⟨l.st.next, Nat.le_refl _, rfl, rfl⟩) a).2]
  simp only [Api.searchAll, hsr]
  have hnx : (settle gs l.st).next = l.st.next := rfl
  simp only [hnx, hsend]
  have hall := comes_all hcome _ hp.ready rfl
  have hlen := comes_length hcome
  have f2 : ds.length < ((settle gs l.st).sock.chunks ++ (peer l.peer bs).2).flatten.length + 1 := by
    simp only [List.flatten_append, List.length_append]; omega
  rw [hall _ f2]
  have hany : ((es.map (fun e => Search.Msg.entry e []) ++ [Search.Msg.done code [] []]).any Api.isEntry) = !es.isEmpty := by
    cases es with
    | nil => rfl
    | cons e l => rfl
  dsimp only
  rw [hany]
  by_cases hfail : (Api.reservedKwd sent.objKwds && !es.isEmpty) = true
  · simp only [hfail, if_true]
    have hnil : (es.map (fun e => Search.Msg.entry e []) ++ [Search.Msg.done code [] []]).takeWhile (fun m => !Api.isEntry m) = [] := by
      cases es with
      | nil => simp at hfail
      | cons e l => rfl
    rw [hnil]
    simp only [Search.iterate]
  · simp only [hfail, Bool.false_eq_true, if_false]
    simp only [o]
    generalize Search.iterate { env.results with fetchRefs := sent.fetchRefs, follow := sent.follow } (if sent.objKwds.any (fun kv => decide (kv.1 = str "tag")) = true then some env.tagUsed else none) ⟨env.handleOwn, []⟩
      (es.map (fun e => Search.Msg.entry e []) ++ [Search.Msg.done code [] []]) = y
    cases y.ending <;> rfl

theorem inv_start (gs gs' : List (List Received.Decoded)) (st : Session.St Received.Decoded) (hp : Pend gs st) (hne : ∀ g ∈ gs', g ≠ []) (hid : ∀ d ∈ gs'.flatten, codec.mid d = st.next) :
    Inv st.next gs'.flatten (.top []) ⟨st.next + 1, setC (gs'.map (fun g => g.flatMap codec.enc)) (enqAll codec st.sock gs.flatten)⟩ := by
  obtain ⟨f1, _, f3⟩ := enqAll_facts codec gs.flatten st.sock
  have hf : ∀ j, st.next ≤ j → ∀ d ∈ gs.flatten, codec.mid d ≠ j := by
    intro j hj d hd
    obtain ⟨g, hg, hdg⟩ := List.mem_flatten.1 hd
    have := (hp.ids g hg d hdg).2
    omega
  refine ⟨Nat.lt_succ_self _, hid, gs', ⟨Nat.succ_pos _, rfl, ?_, f1.trans hp.abandoned, fun j hj => (f3 j (hf j (Nat.le_of_succ_le hj))).trans (hp.queues j (Nat.le_of_succ_le hj))⟩,
    .inl ⟨[], rfl, .inr ⟨rfl, rfl⟩, (f3 _ (hf _ (Nat.le_refl _))).trans (hp.queues _ (Nat.le_refl _)), fun g hg => ⟨hne g hg, fun d hd => hid d (List.mem_flatten.2 ⟨g, hg, hd⟩)⟩⟩⟩
  intro g hg d hd
  have := hid d (List.mem_flatten.2 ⟨g, hg, hd⟩)
  have hpos := hp.pos
  show 0 < codec.mid d ∧ codec.mid d < st.next + 1
  omega

theorem loop_next (n : Nat) (senv : Search.Env V R Received.Entry) (own : List Str) (reserved : Bool) (body : Api.Body V R) (fuel : Nat) (tag : Option Bool) (k : Nat) (s s' : Net.Sock UInt8 Received.Decoded) (p : S) (made : List (Api.Made V R))
    (h : Net.next codec n (.top []) s = Net.next codec n (.top []) s') :
    Api.loop codec (fun d => d.1.1) peer n senv own reserved body (fuel + 1) tag (.top []) ⟨⟨k, s⟩, p⟩ made = Api.loop codec (fun d => d.1.1) peer n senv own reserved body (fuel + 1) tag (.top []) ⟨⟨k, s'⟩, p⟩ made := by
  simp only [Api.loop, h]

/-- a loop over the results of a search, on a connection where whole messages of earlier requests wait to be received -/
theorem searchLoop_runs (hs : Serves dir contents peer) (hw : Whole peer) (fuel : Nat) (gs : List (List Received.Decoded)) (l : Link Received.Decoded S) (hp : Pend gs l.st) (a : SearchArgs V) (body : Api.Body V R) :
    let r := Api.searchLoop codec (fun d => d.1.1) peer env fuel l a body
    let x := (Api.searchAll codec (fun d => d.1.1) peer env l a).2
    Happens dir (contents l.peer) r.made (contents r.link.peer) ∧ (∃ gs, Pend gs r.link.st) ∧ (∃ b, Ran body [] r.items r.made b ∧ (b = true ↔ r.ended = .left)) ∧
    (r.ended = .stop → x = .ok r.items) ∧ (∀ e, r.ended = .raised e → x = .error e) ∧ (∀ its, x = .ok its → r.items <+: its ∧ (its.length < fuel → r.ended ≠ .running)) := by
  intro r x
  cases hsr : ldapSearch env.conn a with
  | error e =>
    have hr : r = ⟨l, [], [], .raised e⟩ := by simp only [r, Api.searchLoop, hsr]
    have hx : x = .error e := by simp only [x, Api.searchAll, hsr]
    rw [hr, hx]
    exact ⟨.none _, ⟨gs, hp⟩, ⟨false, .none _, nofun, nofun⟩, nofun, fun e' h => by cases h; rfl, nofun⟩
  | ok sent =>
    cases hsend : send l.st.next (Call.search sent.req).op sent.ctrls with
    | none =>
      have hr : r = ⟨⟨{ l.st with next := l.st.next + 1 }, l.peer⟩, [], [], .raised .asn1Error⟩ := by simp only [r, Api.searchLoop, hsr, hsend]
      have hx : x = .error .asn1Error := by simp only [x, Api.searchAll, hsr, hsend]
      rw [hr, hx]
      exact ⟨.none _, ⟨gs, hp.later _ (Nat.le_succ _)⟩, ⟨false, .none _, nofun, nofun⟩, nofun, fun e' h => by cases h; rfl, nofun⟩
    | some bs =>
      obtain ⟨he, found, rr, ds, last, hcome, h10⟩ := search_comes env hs l.peer _ a sent bs hsr hsend
      obtain ⟨op, ho, hv, _, henc⟩ := c79_sent _ _ _ _ hsend
      obtain ⟨_, his⟩ := search_request _ _ _ hsr op ho
      obtain ⟨gs', g1, g2, g3⟩ := comes_groups hcome (hw l.peer bs _ op _ his hv henc)
      have hid : ∀ d ∈ gs'.flatten, codec.mid d = l.st.next := by
        intro d hd
        rw [g3] at hd
        rcases List.mem_append.1 hd with h | h
        · exact hcome.mids d h
        · rw [List.mem_singleton.1 h]; exact hcome.midLast
      have hstart := inv_start gs gs' l.st hp g2 hid
      rw [g3] at hstart
      have hx := listed env hs gs l hp a sent bs hsr hsend (found.map show1) _ h10 ds last hcome
      have hrun := loop_runs (contents := contents) (dir := dir) hs hw l.st.next { env.results with fetchRefs := sent.fetchRefs, follow := sent.follow } env.handleOwn (Api.reservedKwd sent.objKwds) body last _ hcome.done h10 (found.map show1) ds fuel
        (if sent.objKwds.any (fun kv => decide (kv.1 = str "tag")) then some env.tagUsed else none) (.top []) ⟨_, (peer l.peer bs).1⟩ [] hcome.seen hstart
      have hgs : gs'.map (fun g => g.flatMap codec.enc) = (peer l.peer bs).2 := g1.symm
      rw [hgs] at hrun
      cases fuel with
      | zero =>
        have hr : r = ⟨⟨⟨l.st.next + 1, { l.st.sock with chunks := l.st.sock.chunks ++ (peer l.peer bs).2 }⟩, (peer l.peer bs).1⟩, [], [], .running⟩ := by simp only [r, Api.searchLoop, hsr, hsend, Api.loop]
        rw [hr]
        refine ⟨by rw [he]; exact .none _, ⟨gs ++ gs', ?_⟩, ⟨false, .none _, nofun, nofun⟩, nofun, nofun, fun its _ => ⟨List.nil_prefix, nofun⟩⟩
        refine ⟨Nat.succ_pos _, ?_, ?_, hp.abandoned, fun j hj => hp.queues j (Nat.le_of_succ_le hj)⟩
        · show l.st.sock.chunks ++ (peer l.peer bs).2 = _
          rw [hp.chunks, ← hgs, List.map_append]
        · intro g hg d hd
          show 0 < codec.mid d ∧ codec.mid d < l.st.next + 1
          rcases List.mem_append.1 hg with h | h
          · have := hp.ids g h d hd
            omega
          · have := hid d (List.mem_flatten.2 ⟨g, h, hd⟩)
            have := hp.pos
            omega
      | succ fuel =>
        have hr : r = Api.loop codec (fun d => d.1.1) peer l.st.next { env.results with fetchRefs := sent.fetchRefs, follow := sent.follow } env.handleOwn (Api.reservedKwd sent.objKwds) body (fuel + 1)
            (if sent.objKwds.any (fun kv => decide (kv.1 = str "tag")) then some env.tagUsed else none) (.top []) ⟨⟨l.st.next + 1, setC (peer l.peer bs).2 (enqAll codec l.st.sock gs.flatten)⟩, (peer l.peer bs).1⟩ [] := by
          simp only [r, Api.searchLoop, hsr, hsend]
          exact loop_next l.st.next _ _ _ body fuel _ _ _ _ _ _ (hp.next (peer l.peer bs).2)
        rw [← hr] at hrun
        dsimp only at hrun hx
        obtain ⟨⟨new, e1, e2⟩, q2, q3, q4⟩ := hrun
        rw [List.nil_append] at e1
        rw [← e1, he] at e2
        refine ⟨e2, q2, q3, ?_⟩
        have hx' : x = _ := hx
        have hlen : ∀ its, x = .ok its → its.length = (found.map show1).length := by
          intro its hi
          rw [hx'] at hi
          rcases iterate_tagged { env.results with fetchRefs := sent.fetchRefs, follow := sent.follow } ⟨env.handleOwn, []⟩ (Received.codeOf rr.code) h10 (found.map show1)
            (if sent.objKwds.any (fun kv => decide (kv.1 = str "tag")) then some env.tagUsed else none) with ⟨_, h⟩ | ⟨h1, h2, _⟩
          · rw [h] at hi
            split at hi <;> cases hi
          · rw [h1] at hi
            split at hi
            · cases hi
            · split at hi
              · cases hi; simp
              · cases hi
              · cases hi
        rw [hx'] at hlen ⊢
        revert q4 hlen
        generalize Search.iterate { env.results with fetchRefs := sent.fetchRefs, follow := sent.follow } (if sent.objKwds.any (fun kv => decide (kv.1 = str "tag")) = true then some env.tagUsed else none) ⟨env.handleOwn, []⟩
          ((found.map show1).map (fun e => Search.Msg.entry e []) ++ [Search.Msg.done (Received.codeOf rr.code) [] []]) = y
        by_cases hfail : (Api.reservedKwd sent.objKwds && !(found.map show1).isEmpty) = true
        · simp only [hfail, if_true]
          intro q4 _
          rcases q4 with ⟨k1, k2, _⟩ | ⟨k1, k2⟩
          · exact ⟨(fun h => by rw [k1] at h; cases h), (fun e h => by rw [k1] at h; cases h; rfl), nofun⟩
          · refine ⟨fun h => ?_, fun e h => ?_, nofun⟩
            · rcases k1 with k1 | ⟨k1, _⟩ <;> (rw [k1] at h; cases h)
            · rcases k1 with k1 | ⟨k1, _⟩ <;> (rw [k1] at h; cases h)
        · simp only [hfail, Bool.false_eq_true, if_false]
          intro q4 hlen
          rcases q4 with ⟨k1, k2, k3, k4⟩ | ⟨k1, k2⟩
          · rw [k1, k2]
            refine ⟨fun h => by rw [h], fun e h => by rw [h], fun its hi => ⟨?_, fun _ => k4⟩⟩
            split at hi
            · cases hi; exact List.prefix_refl _
            · cases hi
            · cases hi
          · refine ⟨fun h => ?_, fun e h => ?_, fun its hi => ⟨?_, fun hf h => ?_⟩⟩
            · rcases k1 with k1 | ⟨k1, _⟩ <;> (rw [k1] at h; cases h)
            · rcases k1 with k1 | ⟨k1, _⟩ <;> (rw [k1] at h; cases h)
            · split at hi
              · cases hi; exact k2
              · cases hi
              · cases hi
            · rcases k1 with k1 | ⟨_, k1⟩
              · rw [k1] at h; cases h
              · have := hlen its hi
                omega

/-! ## Programs -/

theorem step_did (hs : Serves dir contents peer) (hw : Whole peer) (l : Link Received.Decoded S) (hp : ∃ gs, Pend gs l.st) (s : Api.Step V R) :
    let x := Api.step codec (fun d => d.1.1) peer l s
    Happens dir (contents l.peer) x.2 (contents x.1.peer) ∧ ∃ gs, Pend gs x.1.st := by
  cases s with
  | call env c =>
    have h := call_did (contents := contents) (dir := dir) hs hw env l hp c []
    obtain ⟨new, e1, e2⟩ := h.new
    rw [List.nil_append, List.nil_append] at e1
    rw [← e1] at e2
    exact ⟨e2, h.settled hp⟩
  | loop env fuel a body =>
    obtain ⟨gs, hp⟩ := hp
    obtain ⟨h1, h2, _, h4, h5, _⟩ := searchLoop_runs (contents := contents) (dir := dir) env hs hw fuel gs l hp a body
    refine ⟨?_, h2⟩
    have hsearch := (nested (contents := contents) (dir := dir) env hs hw gs l hp (.search a)).1
    simp only [Api.step]
    refine happens_append ?_ h1
    revert h4 h5
    generalize Api.searchLoop codec (fun d => d.1.1) peer env fuel l a body = r
    intro h4 h5
    have key : ∀ res, (∀ its, res = .ok (.found its) → (Api.searchAll codec (fun d => d.1.1) peer env l a).2 = .ok its) → (∀ e, res = .error e → (Api.searchAll codec (fun d => d.1.1) peer env l a).2 = .error e) →
        (∃ y, res = .ok (.found y) ∨ ∃ e, res = .error e) → Effect dir env (contents l.peer) (.search a) res (contents l.peer) := by
      intro res k1 k2 k3
      simp only [Api.call] at hsearch
      revert k1 k2 hsearch
      rcases Api.searchAll codec (fun d => d.1.1) peer env l a with ⟨l', r'⟩
      intro hsearch k1 k2
      obtain ⟨y, rfl | ⟨e, rfl⟩⟩ := k3
      · have := k1 y rfl
        dsimp only at this
        subst this
        exact ⟨rfl, hsearch.2⟩
      · rfl
    simp only [Api.asCall]
    cases hr : r.ended with
    | stop => exact .then (key _ (fun its h => by cases h; exact h4 hr) nofun ⟨_, .inl rfl⟩) (.none _)
    | raised e => exact .then (key _ nofun (fun e' h => by cases h; exact h5 e hr) ⟨[], .inr ⟨e, rfl⟩⟩) (.none _)
    | left => exact .none _
    | running => exact .none _

theorem steps_did (hs : Serves dir contents peer) (hw : Whole peer) (ss : List (Api.Step V R)) : ∀ l : Link Received.Decoded S, (∃ gs, Pend gs l.st) →
    let x := Api.runSteps codec (fun d => d.1.1) peer l ss
    Happens dir (contents l.peer) x.2 (contents x.1.peer) ∧ ∃ gs, Pend gs x.1.st := by
  induction ss with
  | nil => exact fun l hp => ⟨.none _, hp⟩
  | cons s ss ih =>
    intro l hp
    obtain ⟨h1, h2⟩ := step_did (contents := contents) (dir := dir) hs hw l hp s
    obtain ⟨h3, h4⟩ := ih _ h2
    exact ⟨happens_append h1 h3, h4⟩

end
end LoopP

open LoopP OverWire Spec.OverWireS Spec.DirectoryS WireP Spec.LoopS

/-- **C99 (any program).** On a fresh connection to a server with these contents that does not cut messages of its answers to searches, calls and loops over search results are made one after the other; the bodies of the
loops make calls of their own and may leave them. All calls, in the order in which they were made - the search of a loop before the calls in it - are a history of the directory, whatever they are, whatever they return and
whatever they raise. Part of the property: the server does not cut messages (`c99_cut_witness`). -/
theorem c99_program_partial {V R S D : Type} {dir : Directory D} {contents : S → D} {peer : Peer S} (hs : Serves dir contents peer) (hw : Whole peer) (s0 : S) (steps : List (Api.Step V R)) :
    let r := Api.runSteps codec (fun d => d.1.1) peer ⟨Session.St.init, s0⟩ steps
    Happens dir (contents s0) r.2 (contents r.1.peer) :=
  (steps_did (contents := contents) (dir := dir) hs hw steps ⟨Session.St.init, s0⟩ ⟨[], pend_ready SessionP.ready_init⟩).1

/-- **C99 (one loop).** A loop over the results of a search, after any program on the same connection, is as if the results had been listed before it began: if it ends by itself its body has been run with exactly those
results, in their order; it raises what listing them raises; if it is left, or has not ended, it has been run with the first of them; it does end when it is let take more messages than there are results. The calls its
body made are those the body decides on, in order, and they have their effect on the directory. -/
theorem c99_loop_partial {V R S D : Type} {dir : Directory D} {contents : S → D} {peer : Peer S} (hs : Serves dir contents peer) (hw : Whole peer) (s0 : S) (before : List (Api.Step V R)) (env : Api.Env V R) (fuel : Nat)
    (a : SearchArgs V) (body : Api.Body V R) :
    let l := (Api.runSteps codec (fun d => d.1.1) peer ⟨Session.St.init, s0⟩ before).1
    let r := Api.searchLoop codec (fun d => d.1.1) peer env fuel l a body
    let listed := (Api.searchAll codec (fun d => d.1.1) peer env l a).2
    (r.ended = .stop → listed = .ok r.items) ∧ (∀ e, r.ended = .raised e → listed = .error e) ∧ (∀ items, listed = .ok items → r.items <+: items ∧ (items.length < fuel → r.ended ≠ .running)) ∧
    (∃ left, Ran body [] r.items r.made left ∧ (left = true ↔ r.ended = .left)) ∧ Happens dir (contents l.peer) r.made (contents r.link.peer) := by
  intro l r listed
  obtain ⟨gs, hp⟩ := (steps_did (contents := contents) (dir := dir) hs hw before ⟨Session.St.init, s0⟩ ⟨[], pend_ready SessionP.ready_init⟩).2
  obtain ⟨h1, _, h3, h4, h5, h6⟩ := searchLoop_runs (contents := contents) (dir := dir) env hs hw fuel gs l hp a body
  exact ⟨h4, h5, h6, h3, h1⟩

/-- **C99 (what a loop goes over).** A loop that ended by itself has been run with all that the directory, as it was when the loop began, finds for the search, in order, however its body changed the directory meanwhile. -/
theorem c99_finds_partial {V R S D : Type} {dir : Directory D} {contents : S → D} {peer : Peer S} (hs : Serves dir contents peer) (hw : Whole peer) (s0 : S) (before : List (Api.Step V R)) (env : Api.Env V R) (fuel : Nat)
    (a : SearchArgs V) (body : Api.Body V R) :
    let l := (Api.runSteps codec (fun d => d.1.1) peer ⟨Session.St.init, s0⟩ before).1
    let r := Api.searchLoop codec (fun d => d.1.1) peer env fuel l a body
    r.ended = .stop → ∃ op found, SearchFor env.conn a op ∧ dir.finds (contents l.peer) op found ∧ Shown found r.items := by
  intro l r hstop
  obtain ⟨gs, hp⟩ := (steps_did (contents := contents) (dir := dir) hs hw before ⟨Session.St.init, s0⟩ ⟨[], pend_ready SessionP.ready_init⟩).2
  have hl := (searchLoop_runs (contents := contents) (dir := dir) env hs hw fuel gs l hp a body).2.2.2.1 hstop
  have he := (nested (contents := contents) (dir := dir) env hs hw gs l hp (.search a)).1
  simp only [Api.call] at he
  revert he hl
  rcases Api.searchAll codec (fun d => d.1.1) peer env l a with ⟨l', x⟩
  intro hl he
  dsimp only at hl
  subst hl
  obtain ⟨_, op, found, items, h1, h2, h3, h4⟩ := he
  cases h4
  exact ⟨op, found, h1, h2, h3⟩

/-- the same answers, each in one piece -/
def LoopP.joined {S : Type} (peer : Peer S) : Peer S := fun s bs => ((peer s bs).1, if (peer s bs).2.flatten = [] then [] else [(peer s bs).2.flatten])

theorem LoopP.joined_answered {mid : Int} {ops : List Spec.Wire.Op} {pieces : List Bytes} (h : Answered mid ops pieces) : Answered mid ops (if pieces.flatten = [] then [] else [pieces.flatten]) := by
  obtain ⟨bss, h1, h2, h3⟩ := h
  refine ⟨bss, h1, ?_, ?_⟩
  · intro c hc
    split at hc
    · cases hc
    · rename_i hne
      rw [List.mem_singleton.1 hc]
      exact hne
  · split
    · rename_i h0
      rw [← h3, h0]; rfl
    · rw [← h3]; simp

/-- **C99 (the servers meant exist).** Any server can answer in one piece each time; then it does not cut messages and is otherwise the same. -/
theorem c99_server_exists {S D : Type} {dir : Directory D} {contents : S → D} {peer : Peer S} (hs : Serves dir contents peer) : Serves dir contents (LoopP.joined peer) ∧ Whole (LoopP.joined peer) := by
  refine ⟨⟨?_, ?_, ?_⟩, ?_⟩
  · intro s bs mid op resp ctrls h1 h2 h3
    obtain ⟨r, k1, k2⟩ := hs.update s bs mid op resp ctrls h1 h2 h3
    exact ⟨r, joined_answered k1, k2⟩
  · intro s bs mid dn attr value ctrls h1 h2
    obtain ⟨k0, r, k1, k2⟩ := hs.compare s bs mid dn attr value ctrls h1 h2
    exact ⟨k0, r, joined_answered k1, k2⟩
  · intro s bs mid op ctrls h1 h2 h3
    obtain ⟨k0, found, r, k1, k2, k3, k4, k5⟩ := hs.search s bs mid op ctrls h1 h2 h3
    exact ⟨k0, found, r, k1, k2, k3, joined_answered k4, k5⟩
  · intro s bs mid op ctrls h1 h2 h3 c hc
    obtain ⟨_, found, r, _, _, _, ⟨bss, k1, k2, k3⟩, _⟩ := hs.search s bs mid op ctrls h1 h2 h3
    have : c = (peer s bs).2.flatten := by
      simp only [joined] at hc
      split at hc
      · cases hc
      · exact List.mem_singleton.1 hc
    refine ⟨bss, by rw [this, k3], ?_⟩
    have all : ∀ (ops : List Spec.Wire.Op) (bss : List Bytes), Pairwise2 (fun o b => Spec.Wire.Message.Valid ⟨mid, o, none⟩ ∧ Spec.Wire.Message.enc Spec.Wire.x690 ⟨mid, o, none⟩ b) ops bss →
        ∀ b ∈ bss, ∃ m : Spec.Wire.Message, m.Valid ∧ m.enc Spec.Wire.x690 b := by
      intro ops bss h
      induction h with
      | nil => exact nofun
      | cons h _ ih =>
        intro b hb
        rcases List.mem_cons.1 hb with rfl | hb
        · exact ⟨_, h.1, h.2⟩
        · exact ih b hb
    exact all _ _ k1

namespace LoopP
open DirP

/-- with the first result, delete something -/
def bodyOnce : Api.Body Unit Unit := ⟨fun _ => [fun made => if made.isEmpty then some (sampleEnv, .delete (str "o")) else none], fun _ _ => false⟩

/-- with the first result, delete something and leave the loop -/
def bodyLeaves : Api.Body Unit Unit := ⟨fun _ => [fun made => if made.isEmpty then some (sampleEnv, .delete (str "o")) else none], fun made _ => !made.isEmpty⟩

noncomputable def cutLoop := Api.searchLoop codec (fun d => d.1.1) cutPeer sampleEnv 10 ⟨Session.St.init, ()⟩ { base := str "o" } bodyOnce
noncomputable def wholeLoop := Api.searchLoop codec (fun d => d.1.1) (joined cutPeer) sampleEnv 10 ⟨Session.St.init, ()⟩ { base := str "o" } bodyOnce
noncomputable def leftLoop := Api.searchLoop codec (fun d => d.1.1) (joined cutPeer) sampleEnv 10 ⟨Session.St.init, ()⟩ { base := str "o" } bodyLeaves

def isDone : List (Api.Made Unit Unit) → Bool
  | [((_, .delete dn), .ok .done)] => dn == str "o"
  | _ => false

def isRefused : List (Api.Made Unit Unit) → Bool
  | [((_, .delete dn), .error .ldapError)] => dn == str "o"
  | _ => false

/-- DNs and attributes of results -/
def parts : List (Search.Item Received.Entry Unit) → List (Option (Str × List (Str × List AVal)))
  | [] => []
  | .entry e _ :: l => some e :: parts l
  | .ref _ _ :: l => none :: parts l

theorem parts_mem (l : List (Search.Item Received.Entry Unit)) (e : Received.Entry) (h : some e ∈ parts l) : ∃ g, .entry e g ∈ l := by
  induction l with
  | nil => cases h
  | cons x l ih =>
    cases x with
    | entry e' g =>
      rcases List.mem_cons.1 h with h | h
      · cases h; exact ⟨g, List.mem_cons_self⟩
      · obtain ⟨g, hg⟩ := ih h; exact ⟨g, List.mem_cons_of_mem _ hg⟩
    | ref u g =>
      rcases List.mem_cons.1 h with h | h
      · cases h
      · obtain ⟨g, hg⟩ := ih h; exact ⟨g, List.mem_cons_of_mem _ hg⟩

set_option maxRecDepth 100000 in
theorem cut_made : isDone cutLoop.made = true := by decide +kernel

set_option maxRecDepth 100000 in
theorem cut_items : parts cutLoop.items = [some (str "a=1", []), some (str "a=2", [(str "a", [.text [Char.ofNat 48, Char.ofNat 12, Char.ofNat 2, Char.ofNat 1, Char.ofNat 2, Char.ofNat 107, Char.ofNat 7, Char.ofNat 10, Char.ofNat 1, Char.ofNat 50, Char.ofNat 4, Char.ofNat 0, Char.ofNat 4, Char.ofNat 0]])])] := by
  decide +kernel

set_option maxRecDepth 100000 in
theorem whole_made : isRefused wholeLoop.made = true ∧ parts wholeLoop.items = [some (str "a=1", []), some (str "a=2", [(str "a", [.text [Char.ofNat 48, Char.ofNat 12, Char.ofNat 2, Char.ofNat 1, Char.ofNat 2, Char.ofNat 107, Char.ofNat 7, Char.ofNat 10, Char.ofNat 1, Char.ofNat 0, Char.ofNat 4, Char.ofNat 0, Char.ofNat 4, Char.ofNat 0]])])] := by
  decide +kernel

set_option maxRecDepth 100000 in
theorem whole_ended : wholeLoop.ended = .stop ∧ leftLoop.ended = .left ∧ leftLoop.items.length = 1 ∧ isRefused leftLoop.made = true := by decide +kernel

end LoopP

/-- **C99 (a message that is cut).** The server refuses the deletion. When the entry after the one that the loop is at arrives in two pieces, the deletion made in the loop takes the second piece for an answer and returns, and
the loop then takes the refusal for the value of an attribute: it shows a value that the server does not have (its tenth octet is 50, not 0). -/
theorem c99_cut_witness : ∃ (dir : Directory Unit) (peer : Peer Unit) (env : Api.Env Unit Unit) (a : SearchArgs Unit) (body : Api.Body Unit Unit), Serves dir (fun d => d) peer ∧
    let r := Api.searchLoop codec (fun d => d.1.1) peer env 10 ⟨Session.St.init, ()⟩ a body
    ¬ Happens dir () r.made r.link.peer ∧ ∃ e g v, .entry e g ∈ r.items ∧ (str "a", [v]) ∈ e.2 ∧
      ∀ op found, dir.finds () op found → ∀ f ∈ found, ∀ vals, (str "a", vals) ∈ f.2 → ∀ w ∈ vals, ¬ Spec.Wire.Shows w v := by
  refine ⟨DirP.fixedDir, DirP.cutPeer, DirP.sampleEnv, { base := str "o" }, bodyOnce, DirP.cut_serves, ?_⟩
  show ¬ Happens DirP.fixedDir () cutLoop.made cutLoop.link.peer ∧ ∃ e g v, .entry e g ∈ cutLoop.items ∧ _
  constructor
  · have h := cut_made
    revert h
    generalize cutLoop.made = made
    generalize cutLoop.link.peer = d
    intro h hh
    unfold isDone at h
    split at h
    · cases hh with
      | «then» h1 _ => exact h1.1
    · cases h
  · obtain ⟨g, hg⟩ := parts_mem cutLoop.items _ (by rw [cut_items]; exact List.mem_cons_of_mem _ List.mem_cons_self)
    refine ⟨_, g, _, hg, List.mem_cons_self, ?_⟩
    intro op found hf f hm vals hv w hw
    have hf' : found = _ := hf
    subst hf'
    simp only [List.mem_cons, List.not_mem_nil, or_false] at hm
    rcases hm with rfl | rfl
    · cases hv
    · simp only [List.mem_cons, List.not_mem_nil, or_false, Prod.mk.injEq, true_and] at hv
      subst hv
      simp only [List.mem_cons, List.not_mem_nil, or_false] at hw
      subst hw
      show ¬ (_ = utf8Enc _)
      decide

/-- a server that cuts messages is met, and one that does not: there the loop of `c99_cut_witness` makes the same call, is told that it is refused, and shows the values that the server has -/
example : Serves DirP.fixedDir (fun d => d) (joined DirP.cutPeer) ∧ Whole (joined DirP.cutPeer) ∧ isRefused wholeLoop.made = true ∧ wholeLoop.ended = .stop ∧ wholeLoop.items.length = 2 := by
  refine ⟨(c99_server_exists DirP.cut_serves).1, (c99_server_exists DirP.cut_serves).2, whole_made.1, whole_ended.1, ?_⟩
  have h := congrArg List.length whole_made.2
  have : ∀ l : List (Search.Item Received.Entry Unit), (parts l).length = l.length := by
    intro l
    induction l with
    | nil => rfl
    | cons x l ih => cases x <;> exact congrArg (· + 1) ih
  rw [← this, h]
  rfl

/-- `c99_loop_partial` and `c99_program_partial` with these: the loop is left with its first result; then a deletion, on the same connection -/
example : leftLoop.ended = .left ∧ leftLoop.items.length = 1 ∧ Happens DirP.fixedDir ()
    (Api.runSteps codec (fun d => d.1.1) (joined DirP.cutPeer) ⟨Session.St.init, ()⟩ [.loop DirP.sampleEnv 10 { base := str "o" } bodyLeaves, .call DirP.sampleEnv (.delete (str "p"))]).2 () :=
  ⟨whole_ended.2.1, whole_ended.2.2.1, c99_program_partial (c99_server_exists DirP.cut_serves).1 (c99_server_exists DirP.cut_serves).2 () _⟩

/-- listing the results at once, as `c99_loop_partial` compares the loop with -/
example : ∃ items, (Api.searchAll codec (fun d => d.1.1) (joined DirP.cutPeer) DirP.sampleEnv ⟨Session.St.init, ()⟩ { base := str "o" }).2 = .ok items ∧ items = wholeLoop.items :=
  ⟨_, (c99_loop_partial (c99_server_exists DirP.cut_serves).1 (c99_server_exists DirP.cut_serves).2 () [] DirP.sampleEnv 10 { base := str "o" } bodyOnce).1 whole_ended.1, rfl⟩

end Laurelin.Props
