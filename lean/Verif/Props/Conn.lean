import Verif.Model.Conn
import Verif.Lemmas.PDict
/-!
# C24 message ids, C25 shared sockets, C26 bind states, C27 SASL downgrade
-/
namespace Laurelin.Props
open Laurelin Laurelin.Conn

/-! ## Predicates on sockets kept by every call -/

/-- `P` is kept by every update a call makes to a socket; `allow` says whether requests may fail to pack. -/
structure Kept (allow : Bool) (P : Conn.Sock → Prop) : Prop where
  new : ∀ u, P { uri := u }
  ref : ∀ s r, P s → P { s with refcount := r }
  skip : ∀ s, (allow = true ∨ s.nextId > maxInt ∨ s.unbound = true) → P s → P { s with nextId := s.nextId + 1 }
  snd : ∀ s, s.unbound = false → s.nextId ≤ maxInt → P s → P { s with nextId := s.nextId + 1, sent := s.sent ++ [s.nextId] }
  close : ∀ s, P s → P { s with unbound := true }
  bind : ∀ s, s.unbound = false → P s → P { s with bound := true }

/-- every socket satisfies `P` -/
def AllS (P : Conn.Sock → Prop) (st : St) : Prop := ∀ s ∈ st.socks, P s

theorem allS_get {P : Conn.Sock → Prop} {st : St} (h : AllS P st) {i : Nat} {s : Conn.Sock} (hs : st.socks[i]? = some s) : P s :=
  h s (List.mem_of_getElem? hs)

theorem allS_set {P : Conn.Sock → Prop} {st : St} (h : AllS P st) (i : Nat) {s : Conn.Sock} (hs : P s) : AllS P (st.setSock i s) := by
  intro x hx
  rcases List.mem_or_eq_of_mem_set hx with hx | rfl
  · exact h x hx
  · exact hs

theorem send_kept {a : Bool} {P : Conn.Sock → Prop} (K : Kept a P) {st : St} (h : AllS P st) (i : Nat) (ok : Bool) (hok : a = true ∨ ok = true) :
    AllS P (st.send i ok).2 := by
  unfold St.send
  cases hs : st.socks[i]? with
  | none => exact h
  | some s =>
    have hp := allS_get h hs
    simp only []
    split
    · rename_i hc
      refine allS_set h i (K.skip s ?_ hp)
      rcases hok with h1 | h1
      · exact .inl h1
      · subst h1; simp at hc; exact .inr (.inl hc)
    · split
      · rename_i hu; exact allS_set h i (K.skip s (.inr (.inr hu)) hp)
      · rename_i hc hu
        simp at hc hu
        exact allS_set h i (K.snd s hu hc.2 hp)

theorem attach_kept {a : Bool} {P : Conn.Sock → Prop} (K : Kept a P) {st : St} (h : AllS P st) (i : Nat) (f : Bool) (dm : Option Str) (net : Net) :
    AllS P (st.attach i f dm net).2 := by
  unfold St.attach
  cases hs : st.socks[i]? with
  | none => exact h
  | some s =>
    have h1 : AllS P (st.setSock i { s with refcount := s.refcount + 1 }) := allS_set h i (K.ref _ _ (allS_get h hs))
    have h2 := send_kept K h1 i true (.inr rfl)
    simp only []
    split
    · exact h1
    · split
      · rename_i heq; rw [heq] at h2; exact h2
      · rename_i heq
        rw [heq] at h2
        split
        · exact h2
        · exact h2

theorem newSock_kept {a : Bool} {P : Conn.Sock → Prop} (K : Kept a P) (unq : Str → Str) {st : St} (h : AllS P st) (u : Str) (net : Net) :
    AllS P (st.newSock unq u net).2 := by
  unfold St.newSock
  split
  · exact h
  · split
    · intro s hs
      simp only [List.mem_append, List.mem_singleton] at hs
      rcases hs with hs | rfl
      · exact h s hs
      · exact K.new _
    · exact h

theorem connect_kept {a : Bool} {P : Conn.Sock → Prop} (K : Kept a P) (unq : Str → Str) {st : St} (h : AllS P st) (u : Str) (r f : Bool)
    (dm : Option Str) (net : Net) : AllS P (st.connect unq u r f dm net).2 := by
  have hn := newSock_kept K unq h u net
  unfold St.connect
  split
  · split
    · exact attach_kept K h _ _ _ _
    · split
      · rename_i heq; rw [heq] at hn; exact hn
      · rename_i i0 st0 heq; rw [heq] at hn; exact attach_kept K (st := { st0 with table := st0.table.set u i0 }) hn _ _ _ _
  · split
    · rename_i heq; rw [heq] at hn; exact hn
    · rename_i heq; rw [heq] at hn; exact attach_kept K hn _ _ _ _

theorem unbind_kept {a : Bool} {P : Conn.Sock → Prop} (K : Kept a P) {st : St} (h : AllS P st) (i : Nat) (force : Bool) :
    AllS P (st.unbind i force).2 := by
  unfold St.unbind
  split
  · exact h
  · split
    · exact h
    · rename_i c _ _ s hs
      split
      · exact h
      · have h1 : AllS P (st.setSock c.sock { s with refcount := s.refcount - 1 }) := allS_set h _ (K.ref _ _ (allS_get h hs))
        have h2 := send_kept K h1 c.sock true (.inr rfl)
        simp only []
        split
        · split
          · rename_i heq; rw [heq] at h2; exact h2
          · rename_i heq
            rw [heq] at h2
            split
            · exact h2
            · rename_i hs'
              exact allS_set h2 _ (K.close _ (allS_get h2 hs'))
        · exact h1

/-- a message that went out went out on an open socket, which stays open -/
theorem send_ok_open {st st' : St} {i : Nat} {ok : Bool} (h : st.send i ok = (.ok (), st')) :
    ∃ s s', st.socks[i]? = some s ∧ s.unbound = false ∧ st'.socks[i]? = some s' ∧ s' = { s with nextId := s.nextId + 1, sent := s.sent ++ [s.nextId] } ∧
      st'.insts = st.insts ∧ st'.table = st.table := by
  unfold St.send at h
  cases hs : st.socks[i]? with
  | none => simp [hs] at h
  | some s =>
    simp only [hs] at h
    split at h
    · simp at h
    · split at h
      · simp at h
      · rename_i hu
        simp only [Prod.mk.injEq, true_and] at h
        subst h
        refine ⟨s, _, rfl, by simpa using hu, ?_, rfl, rfl, rfl⟩
        have : i < st.socks.length := by
          by_cases hlt : i < st.socks.length
          · exact hlt
          · rw [List.getElem?_eq_none (by omega)] at hs; exact absurd hs (by simp)
        simp [St.setSock, this]

theorem simpleBind_kept {a : Bool} {P : Conn.Sock → Prop} (K : Kept a P) {st : St} (h : AllS P st) (i : Nat) (ok : Bool) (ans : Option Ans)
    (hok : a = true ∨ ok = true) : AllS P (st.simpleBind i ok ans).2 := by
  unfold St.simpleBind
  split
  · exact h
  · split
    · exact h
    · rename_i c _ _ s hs
      split
      · exact h
      · split
        · exact h
        · have h2 := send_kept K h c.sock ok hok
          split
          · rename_i heq; rw [heq] at h2; exact h2
          · rename_i heq
            obtain ⟨s1, s2, a1, a2, a3, a4, _⟩ := send_ok_open heq
            rw [heq] at h2
            split
            · exact h2
            · rename_i hs'
              refine allS_set h2 _ (K.bind _ ?_ (allS_get h2 hs'))
              rw [a3] at hs'
              rw [← Option.some.inj hs', a4]; exact a2
            · exact h2

theorem recheck_kept {a : Bool} {P : Conn.Sock → Prop} (K : Kept a P) {st : St} (h : AllS P st) (i : Nat) (ans : Option (List Str)) :
    AllS P (st.recheck i ans).2 := by
  unfold St.recheck
  split
  · exact h
  · split
    · exact h
    · rename_i c _ _ o _
      have h2 := send_kept K (st := { st with insts := st.insts.set i { c with mechs := none } }) h c.sock true (.inr rfl)
      simp only []
      split
      · rename_i heq; rw [heq] at h2; exact h2
      · rename_i heq
        rw [heq] at h2
        split
        · exact h2
        · split
          · exact h2
          · split
            · exact h2
            · exact h2

theorem saslLoop_kept {a : Bool} {P : Conn.Sock → Prop} (K : Kept a P) {st : St} (h : AllS P st) (i k : Nat) (ans : Option (List Str)) (anss : List Ans) :
    AllS P (st.saslLoop i k ans anss).2 := by
  induction anss generalizing st with
  | nil =>
    have h2 := send_kept K h k true (.inr rfl)
    unfold St.saslLoop
    split
    · rename_i heq; rw [heq] at h2; exact h2
    · rename_i heq; rw [heq] at h2; exact h2
  | cons x anss ih =>
    have h2 := send_kept K h k true (.inr rfl)
    unfold St.saslLoop
    split
    · rename_i heq; rw [heq] at h2; exact h2
    · rename_i heq
      obtain ⟨s1, s2, a1, a2, a3, a4, _⟩ := send_ok_open heq
      rw [heq] at h2
      split
      · exact ih h2
      · exact h2
      · exact h2
      · split
        · exact h2
        · rename_i hs'
          refine recheck_kept K (allS_set h2 _ (K.bind _ ?_ (allS_get h2 hs'))) _ _
          rw [a3] at hs'
          rw [← Option.some.inj hs', a4]; exact a2

theorem saslBind_kept {a : Bool} {P : Conn.Sock → Prop} (K : Kept a P) (choose : List Str → Option Str) {st : St} (h : AllS P st) (i : Nat)
    (mech : Option Str) (f ans : Option (List Str)) (anss : List Ans) : AllS P (st.saslBind choose i mech f ans anss).2.1 := by
  unfold St.saslBind
  split
  · exact h
  · split
    · exact h
    · rename_i c _ _ s hs
      split
      · exact h
      · split
        · exact h
        · have h2 := send_kept K h c.sock true (.inr rfl)
          have main : ∀ (got : Except Err (List Str) × St), AllS P got.2 → AllS P
            (match got with
              | (.error e, st) => ((Res.err e, st, none) : Res × St × Option Str)
              | (.ok ms, st) =>
                match candidates ms mech c.defaultMech with
                | .error e => (.err e, st, none)
                | .ok cand =>
                  match choose cand with
                  | none => (.err .saslError, st, none)
                  | some m => ((st.saslLoop i c.sock ans anss).1, (st.saslLoop i c.sock ans anss).2, some m)).2.1 := by
            rintro ⟨g, st1⟩ hg
            cases g with
            | error e => exact hg
            | ok ms =>
              simp only []
              split
              · exact hg
              · split
                · exact hg
                · exact saslLoop_kept K hg _ _ _ _
          simp only []
          apply main
          split
          · exact h
          · split
            · rename_i heq; rw [heq] at h2; exact h2
            · rename_i heq; rw [heq] at h2
              split <;> exact h2

theorem operation_kept {a : Bool} {P : Conn.Sock → Prop} (K : Kept a P) {st : St} (h : AllS P st) (i : Nat) (ok : Bool)
    (hok : a = true ∨ ok = true) : AllS P (st.operation i ok).2 := by
  unfold St.operation
  split
  · exact h
  · split
    · exact h
    · rename_i c _ _ s hs
      split
      · exact h
      · have h2 := send_kept K h c.sock ok hok
        split <;> (rename_i heq; rw [heq] at h2; exact h2)

theorem extended_kept {a : Bool} {P : Conn.Sock → Prop} (K : Kept a P) {st : St} (h : AllS P st) (i : Nat) (ok : Bool)
    (hok : a = true ∨ ok = true) : AllS P (st.extended i ok).2 := by
  unfold St.extended
  split
  · exact h
  · rename_i c _
    have h2 := send_kept K h c.sock ok hok
    split <;> (rename_i heq; rw [heq] at h2; exact h2)

/-- no request of this call failed to pack -/
def EvOk : Conn.Ev → Prop
  | .simpleBind _ ok _ => ok = true
  | .operation _ ok => ok = true
  | .extended _ ok => ok = true
  | _ => True

theorem step_kept {a : Bool} {P : Conn.Sock → Prop} (K : Kept a P) (unq : Str → Str) (choose : List Str → Option Str) {st : St} (h : AllS P st)
    (e : Conn.Ev) (he : a = true ∨ EvOk e) : AllS P (st.step unq choose e).2 := by
  cases e with
  | connect u r f dm net => exact connect_kept K unq h _ _ _ _ _
  | share i f dm net =>
    simp only [St.step]
    split
    · exact h
    · exact attach_kept K h _ _ _ _
  | unbind i force => exact unbind_kept K h _ _
  | simpleBind i ok ans => exact simpleBind_kept K h _ _ _ he
  | saslBind i mech f ans anss => exact saslBind_kept K choose h _ _ _ _ _
  | operation i ok => exact operation_kept K h _ _ he
  | extended i ok => exact extended_kept K h _ _ he

theorem run_kept {a : Bool} {P : Conn.Sock → Prop} (K : Kept a P) (unq : Str → Str) (choose : List Str → Option Str) (es : List Conn.Ev) {st : St}
    (h : AllS P st) (he : a = true ∨ ∀ e ∈ es, EvOk e) : AllS P (st.run unq choose es).2 := by
  induction es generalizing st with
  | nil => exact h
  | cons e es ih =>
    refine ih (step_kept K unq choose h e ?_) ?_
    · rcases he with h | h
      · exact .inl h
      · exact .inr (h e (by simp))
    · rcases he with h | h
      · exact .inl h
      · exact .inr (fun x hx => h x (List.mem_cons_of_mem _ hx))

/-! ## C24 -/

/-- **C24.** In every history of connects (shared or not), binds, operations, extended requests and unbinds, by any number of `LDAP`
instances, with requests failing to pack at will, the message ids transmitted on a socket are positive, at most the protocol's maximum, and strictly
increasing: none is ever reused. -/
theorem c24_never_reused (unq : Str → Str) (choose : List Str → Option Str) (es : List Conn.Ev) :
    ∀ s ∈ (({} : St).run unq choose es).2.socks, s.sent.Pairwise (· < ·) ∧ ∀ x ∈ s.sent, 1 ≤ x ∧ x ≤ 2147483647 := by
  have K : Kept true (fun s => s.sent.Pairwise (· < ·) ∧ (∀ x ∈ s.sent, 1 ≤ x ∧ x ≤ maxInt ∧ x < s.nextId) ∧ 1 ≤ s.nextId) := by
    constructor
    · intro u; simp
    · intro s r h; exact h
    · rintro s - ⟨h1, h2, h3⟩
      refine ⟨h1, fun x hx => ?_, by simp⟩
      have := h2 x hx; simp only; omega
    · rintro s - hm ⟨h1, h2, h3⟩
      refine ⟨?_, ?_, by simp⟩
      · rw [List.pairwise_append]
        refine ⟨h1, by simp, ?_⟩
        intro x hx y hy
        simp at hy; subst hy
        exact (h2 x hx).2.2
      · intro x hx
        simp only [List.mem_append, List.mem_singleton] at hx
        rcases hx with hx | rfl
        · have := h2 x hx; simp only; omega
        · simp only; omega
    · intro s h; exact h
    · intro s _ h; exact h
  intro s hs
  have := run_kept K unq choose es (st := {}) (by simp [AllS]) (.inl rfl) s hs
  exact ⟨this.1, fun x hx => ⟨(this.2.1 x hx).1, (this.2.1 x hx).2.1⟩⟩

/-- **C24, from 1 without gaps** when every request can be packed. -/
theorem c24_consecutive (unq : Str → Str) (choose : List Str → Option Str) (es : List Conn.Ev) (he : ∀ e ∈ es, EvOk e) :
    ∀ s ∈ (({} : St).run unq choose es).2.socks, s.sent = List.range' 1 s.sent.length := by
  have K : Kept false (fun s => s.sent = List.range' 1 s.sent.length ∧ (s.unbound = true ∨ s.nextId > maxInt ∨ s.nextId = s.sent.length + 1)) := by
    constructor
    · intro u; simp
    · intro s r h; exact h
    · rintro s hs ⟨h1, h2⟩
      refine ⟨h1, ?_⟩
      simp only [Bool.false_eq_true, false_or] at hs
      rcases hs with hs | hs
      · exact .inr (.inl (by simp only; omega))
      · exact .inl hs
    · rintro s hu hm ⟨h1, h2⟩
      have hn : s.nextId = s.sent.length + 1 := by
        rcases h2 with h | h | h
        · rw [hu] at h; exact absurd h (by simp)
        · omega
        · exact h
      refine ⟨?_, ?_⟩
      · simp only [List.length_append, List.length_singleton]
        rw [List.range'_concat, ← h1, hn]
        congr 2
        omega
      · simp only [List.length_append, List.length_singleton]; right; right; omega
    · intro s h; exact ⟨h.1, .inl rfl⟩
    · rintro s hu h; exact h
  intro s hs
  exact (run_kept K unq choose es (st := {}) (by simp [AllS]) (.inr he) s hs).1

/-- two instances sharing one socket, one bind, one request failing to pack: ids 1, 2, 3, (4 lost), 5 -/
example : ((({} : St).run id List.head? [.connect (str "ldap://h") true true none ⟨true, some []⟩, .connect (str "ldap://h") true true none ⟨true, some []⟩,
    .simpleBind 0 true (some .success), .operation 1 false, .operation 0 true]).2.socks.map Sock.sent) = [[1, 2, 3, 5]] := by decide

/-! ## C25 -/

/-- The instances whose `unbind` succeeded in the course of a history. -/
def released (unq : Str → Str) (choose : List Str → Option Str) : St → List Conn.Ev → List Nat
  | _, [] => []
  | st, e :: es =>
    (match e, (st.step unq choose e).1 with
      | .unbind i _, .ok => [i]
      | _, _ => []) ++ released unq choose (st.step unq choose e).2 es

/-- The histories C25 speaks about: connecting and reading the root DSE succeeds whenever it is tried, nobody forces an unbind, no instance
unbinds after it has unbound, and fewer than 2^31 messages are sent on each socket. `R`: who has unbound already. -/
def QuietConn (unq : Str → Str) (choose : List Str → Option Str) : St → List Nat → List Conn.Ev → Prop
  | _, _, [] => True
  | st, R, e :: es =>
    (∀ s ∈ st.socks, s.nextId ≤ 2147483647) ∧
    (match e with
      | .connect _ _ _ _ net => net.dial = true ∧ net.dse ≠ none
      | .share _ _ _ net => net.dial = true ∧ net.dse ≠ none
      | .unbind i force => force = false ∧ i ∉ R
      | _ => True) ∧
    QuietConn unq choose (st.step unq choose e).2 (R ++ released unq choose st [e]) es

/-- Instance `i` uses socket `k` and has not unbound. -/
def Uses (st : St) (R : List Nat) (i k : Nat) : Prop := (∃ c, st.insts[i]? = some c ∧ c.sock = k) ∧ i ∉ R

/-- what C25 depends on: which socket each instance uses, and reference count, state and URI of each socket -/
def view (st : St) : List Nat × List (Int × Bool × Str) × PDict Str Nat :=
  (st.insts.map Inst.sock, st.socks.map (fun s => (s.refcount, s.unbound, s.uri)), st.table)

theorem setSock_view {st : St} {i : Nat} {s s' : Conn.Sock} (hs : st.socks[i]? = some s)
    (h : (s'.refcount, s'.unbound, s'.uri) = (s.refcount, s.unbound, s.uri)) : view (st.setSock i s') = view st := by
  unfold view St.setSock
  simp only [Prod.mk.injEq, true_and, and_true, List.map_set, h]
  apply List.ext_getElem?
  intro j
  rw [List.getElem?_set]
  split
  · subst_vars
    simp only [List.length_map, List.getElem?_map, hs, Option.map_some]
    split
    · rfl
    · rename_i hlt; rw [List.getElem?_eq_none (by omega)] at hs; exact absurd hs (by simp)
  · rfl

theorem send_view (st : St) (i : Nat) (ok : Bool) : view (st.send i ok).2 = view st := by
  unfold St.send
  cases hs : st.socks[i]? with
  | none => rfl
  | some s =>
    simp only []
    split
    · exact setSock_view hs rfl
    · split
      · exact setSock_view hs rfl
      · exact setSock_view hs rfl

theorem simpleBind_view (st : St) (i : Nat) (ok : Bool) (ans : Option Ans) : view (st.simpleBind i ok ans).2 = view st := by
  unfold St.simpleBind
  split
  · rfl
  · split
    · rfl
    · rename_i c _ _ s hs
      split
      · rfl
      · split
        · rfl
        · have h2 := send_view st c.sock ok
          split
          · rename_i heq; rw [heq] at h2; exact h2
          · rename_i heq
            rw [heq] at h2
            split
            · exact h2
            · rename_i hs'
              rw [← h2]; exact setSock_view hs' rfl
            · exact h2

theorem insts_set_view (st : St) (i : Nat) (c c' : Inst) (hc : st.insts[i]? = some c) (h : c'.sock = c.sock) :
    view { st with insts := st.insts.set i c' } = view st := by
  unfold view
  simp only [Prod.mk.injEq, and_true, List.map_set, h]
  apply List.ext_getElem?
  intro j
  rw [List.getElem?_set]
  split
  · subst_vars
    simp only [List.length_map, List.getElem?_map, hc, Option.map_some]
    split
    · rfl
    · rename_i hlt; rw [List.getElem?_eq_none (by omega)] at hc; exact absurd hc (by simp)
  · rfl

theorem send_insts (st : St) (i : Nat) (ok : Bool) : (st.send i ok).2.insts = st.insts := by
  unfold St.send
  split
  · rfl
  · split
    · rfl
    · split <;> rfl

theorem recheck_view (st : St) (i : Nat) (ans : Option (List Str)) : view (st.recheck i ans).2 = view st := by
  unfold St.recheck
  split
  · rfl
  · split
    · rfl
    · rename_i c hc _ o _
      have h1 : view { st with insts := st.insts.set i { c with mechs := none } } = view st := insts_set_view st i c _ hc rfl
      have h2 := send_view { st with insts := st.insts.set i { c with mechs := none } } c.sock true
      have h3 := send_insts { st with insts := st.insts.set i { c with mechs := none } } c.sock true
      have hlt : i < st.insts.length := by
        by_cases hlt : i < st.insts.length
        · exact hlt
        · rw [List.getElem?_eq_none (by omega)] at hc; exact absurd hc (by simp)
      simp only []
      split
      · rename_i heq; rw [heq] at h2; exact h2.trans h1
      · rename_i st1 heq
        rw [heq] at h2 h3
        have hv : ∀ new, view { st1 with insts := st1.insts.set i { c with mechs := some new } } = view st := by
          intro new
          rw [insts_set_view st1 i { c with mechs := none } { c with mechs := some new } (by rw [h3]; simp [hlt]) rfl]
          exact h2.trans h1
        split
        · exact h2.trans h1
        · split
          · exact hv _
          · split <;> exact hv _

theorem saslLoop_view (st : St) (i k : Nat) (ans : Option (List Str)) (anss : List Ans) : view (st.saslLoop i k ans anss).2 = view st := by
  induction anss generalizing st with
  | nil =>
    have h2 := send_view st k true
    unfold St.saslLoop
    split <;> (rename_i heq; rw [heq] at h2; exact h2)
  | cons x anss ih =>
    have h2 := send_view st k true
    unfold St.saslLoop
    split
    · rename_i heq; rw [heq] at h2; exact h2
    · rename_i heq
      rw [heq] at h2
      split
      · exact (ih _).trans h2
      · exact h2
      · exact h2
      · split
        · exact h2
        · rename_i hs'
          rw [recheck_view, ← h2]
          exact setSock_view hs' rfl

theorem saslBind_view (choose : List Str → Option Str) (st : St) (i : Nat)
    (mech : Option Str) (f ans : Option (List Str)) (anss : List Ans) : view (st.saslBind choose i mech f ans anss).2.1 = view st := by
  unfold St.saslBind
  split
  · rfl
  · split
    · rfl
    · rename_i c hc _ s hs
      split
      · rfl
      · split
        · rfl
        · have h2 := send_view st c.sock true
          have h3 := send_insts st c.sock true
          have main : ∀ (got : Except Err (List Str) × St), view got.2 = view st → view
            (match got with
              | (.error e, st) => ((Res.err e, st, none) : Res × St × Option Str)
              | (.ok ms, st) =>
                match candidates ms mech c.defaultMech with
                | .error e => (.err e, st, none)
                | .ok cand =>
                  match choose cand with
                  | none => (.err .saslError, st, none)
                  | some m => ((st.saslLoop i c.sock ans anss).1, (st.saslLoop i c.sock ans anss).2, some m)).2.1 = view st := by
            rintro ⟨g, st1⟩ hg
            cases g with
            | error e => exact hg
            | ok ms =>
              simp only []
              split
              · exact hg
              · split
                · exact hg
                · exact (saslLoop_view _ _ _ _ _).trans hg
          simp only []
          apply main
          split
          · rfl
          · split
            · rename_i heq; rw [heq] at h2; exact h2
            · rename_i heq; rw [heq] at h2 h3
              split
              · exact h2
              · rename_i ms
                exact (insts_set_view _ i c { c with mechs := some ms } (by rw [h3]; exact hc) rfl).trans h2

theorem operation_view (st : St) (i : Nat) (ok : Bool) : view (st.operation i ok).2 = view st := by
  unfold St.operation
  split
  · rfl
  · split
    · rfl
    · rename_i c _ _ s hs
      split
      · rfl
      · have h2 := send_view st c.sock ok
        split <;> (rename_i heq; rw [heq] at h2; exact h2)

theorem extended_view (st : St) (i : Nat) (ok : Bool) : view (st.extended i ok).2 = view st := by
  unfold St.extended
  split
  · rfl
  · rename_i c _
    have h2 := send_view st c.sock ok
    split <;> (rename_i heq; rw [heq] at h2; exact h2)

/-- number of instances using socket `k` that have not unbound -/
def users (is : List Nat) (R : List Nat) (k : Nat) : Nat := (List.range is.length).countP (fun j => decide (is[j]? = some k) && decide (j ∉ R))

theorem users_append (is R : List Nat) (k i : Nat) (hR : ∀ j ∈ R, j < is.length) :
    users (is ++ [i]) R k = users is R k + if i = k then 1 else 0 := by
  unfold users
  simp only [List.length_append, List.length_singleton, List.range_succ, List.countP_append, List.countP_singleton]
  congr 1
  · apply List.countP_congr
    intro j hj
    rw [List.getElem?_append_left (by simpa using hj)]
  · have : is.length ∉ R := fun h => absurd (hR _ h) (by omega)
    by_cases h : i = k <;> simp [h, this]

theorem countP_remove (l : List Nat) (hl : l.Nodup) (p : Nat → Bool) (i : Nat) (hi : i ∈ l) (hp : p i = true) :
    l.countP (fun j => p j && decide (j ≠ i)) + 1 = l.countP p := by
  induction l with
  | nil => simp at hi
  | cons x l ih =>
    rw [List.nodup_cons] at hl
    rcases List.mem_cons.mp hi with rfl | hi
    · have : l.countP (fun j => p j && decide (j ≠ i)) = l.countP p := by
        apply List.countP_congr
        intro j hj
        have : j ≠ i := fun e => hl.1 (e ▸ hj)
        simp [this]
      simp only [List.countP_cons, this, hp]
      simp
    · have hx : x ≠ i := fun e => hl.1 (e ▸ hi)
      simp only [List.countP_cons, ← ih hl.2 hi]
      by_cases hpx : p x = true <;> simp [hpx, hx]

theorem users_release (is R : List Nat) (k i : Nat) (hi : is[i]? = some k) (hR : i ∉ R) (k' : Nat) :
    users is (R ++ [i]) k' + (if k' = k then 1 else 0) = users is R k' := by
  unfold users
  by_cases hk : k' = k
  · subst hk
    rw [if_pos rfl]
    have hlt : i < is.length := by
      by_cases hlt : i < is.length
      · exact hlt
      · rw [List.getElem?_eq_none (by omega)] at hi; exact absurd hi (by simp)
    have h := countP_remove (List.range is.length) List.nodup_range (fun j => decide (is[j]? = some k') && decide (j ∉ R)) i
      (by simpa using hlt) (by simp [hi, hR])
    rw [← h]
    congr 1
    apply List.countP_congr
    intro j _
    simp only [List.mem_append, List.mem_singleton, not_or, Bool.and_eq_true, decide_eq_true_eq]
    constructor <;> (rintro ⟨a, b⟩; simp_all)
  · rw [if_neg hk, Nat.add_zero]
    apply List.countP_congr
    intro j _
    simp only [List.mem_append, List.mem_singleton, not_or, Bool.and_eq_true, decide_eq_true_eq]
    constructor
    · rintro ⟨a, b, _⟩; exact ⟨a, b⟩
    · rintro ⟨a, b⟩
      refine ⟨a, b, ?_⟩
      rintro rfl
      rw [hi] at a
      exact hk (Option.some.inj a).symm

/-- reference counts are right; `ex`: a socket that may not be in use yet -/
structure CInv (v : List Nat × List (Int × Bool × Str) × PDict Str Nat) (R : List Nat) (ex : Option Nat) : Prop where
  idx : ∀ k ∈ v.1, k < v.2.1.length
  rel : ∀ j ∈ R, j < v.1.length
  opn : ∀ k rc u, v.2.1[k]? = some (rc, false, u) → rc = (users v.1 R k : Int) ∧ (ex ≠ some k → 0 < users v.1 R k)
  cls : ∀ k rc u, v.2.1[k]? = some (rc, true, u) → users v.1 R k = 0

theorem get_lt {α : Type} {l : List α} {i : Nat} {x : α} (h : l[i]? = some x) : i < l.length := by
  by_cases hlt : i < l.length
  · exact hlt
  · rw [List.getElem?_eq_none (by omega)] at h; exact absurd h (by simp)

/-- attaching to a socket: what the view becomes -/
theorem attach_view (st : St) (k : Nat) (f : Bool) (dm : Option Str) (net : Net) (s : Conn.Sock) (hs : st.socks[k]? = some s)
    (hm : s.nextId ≤ maxInt) (hd : net.dse ≠ none) :
    if s.unbound then (st.attach k f dm net).1 = .err .unbound ∧
        view (st.attach k f dm net).2 = ((view st).1, (view st).2.1.set k (s.refcount + 1, true, s.uri), st.table)
    else (st.attach k f dm net).1 = .ok ∧
        view (st.attach k f dm net).2 = ((view st).1 ++ [k], (view st).2.1.set k (s.refcount + 1, false, s.uri), st.table) := by
  have hlt := get_lt hs
  cases hu : s.unbound with
  | true =>
    simp only [if_true]
    have : st.attach k f dm net = (.err .unbound, st.setSock k { s with refcount := s.refcount + 1 }) := by
      unfold St.attach; simp only [hs, hu, if_true]
    rw [this]
    refine ⟨rfl, ?_⟩
    simp [view, St.setSock, List.map_set, hu]
  | false =>
    simp only [Bool.false_eq_true, if_false]
    obtain ⟨ms, hms⟩ := Option.ne_none_iff_exists'.mp hd
    have hsend : (st.setSock k { s with refcount := s.refcount + 1 }).send k true =
        (.ok (), (st.setSock k { s with refcount := s.refcount + 1 }).setSock k
          { s with refcount := s.refcount + 1, nextId := s.nextId + 1, sent := s.sent ++ [s.nextId] }) := by
      unfold St.send
      simp [St.setSock, hlt, hm, hu]
    have : st.attach k f dm net = (.ok, { (st.setSock k { s with refcount := s.refcount + 1 }).setSock k
          { s with refcount := s.refcount + 1, nextId := s.nextId + 1, sent := s.sent ++ [s.nextId] } with
            insts := st.insts ++ [⟨k, some ms, dm, f⟩] }) := by
      simp only [hu] at hsend
      unfold St.attach
      simp only [hs, hu, Bool.false_eq_true, if_false, hsend, hms]
      rfl
    rw [this]
    refine ⟨rfl, ?_⟩
    simp [view, St.setSock, List.map_set, hu]

theorem attach_inv {st : St} {R : List Nat} {k : Nat} (f : Bool) (dm : Option Str) (net : Net) {s : Conn.Sock} (hs : st.socks[k]? = some s)
    (hm : s.nextId ≤ maxInt) (hd : net.dse ≠ none) (h : CInv (view st) R (some k)) (he : s.unbound = true → CInv (view st) R none) :
    CInv (view (st.attach k f dm net).2) R none := by
  have hv := attach_view st k f dm net s hs hm hd
  have hlt : k < (view st).2.1.length := by simpa [view] using get_lt hs
  have hk : (view st).2.1[k]? = some (s.refcount, s.unbound, s.uri) := by simp [view, hs]
  cases hu : s.unbound with
  | true =>
    simp only [hu, if_true] at hv
    rw [hv.2]
    obtain ⟨h1, h2, h3, h4⟩ := he hu
    refine ⟨by simpa using h1, h2, ?_, ?_⟩
    · intro j rc u hj
      simp only [List.getElem?_set] at hj
      split at hj
      · subst_vars; simp at hj
      · exact h3 j rc u hj
    · intro j rc u hj
      simp only [List.getElem?_set] at hj
      split at hj
      · rename_i hkj; subst hkj; exact h4 k _ _ (by rw [hk, hu])
      · exact h4 j rc u hj
  | false =>
    simp only [hu, Bool.false_eq_true, if_false] at hv
    rw [hv.2]
    obtain ⟨h1, h2, h3, h4⟩ := h
    refine ⟨?_, ?_, ?_, ?_⟩
    · intro j hj
      simp only [List.mem_append, List.mem_singleton, List.length_set] at hj ⊢
      rcases hj with hj | rfl
      · exact h1 j hj
      · exact hlt
    · intro j hj
      have := h2 j hj
      simp only [List.length_append]; omega
    · intro j rc u hj
      simp only [List.getElem?_set] at hj
      simp only [users_append _ _ _ _ h2]
      split at hj
      · rename_i hkj
        subst hkj
        simp only [Option.some.injEq, Prod.mk.injEq] at hj
        have := h3 k _ _ (by rw [hk, hu])
        simp only [if_true]
        refine ⟨?_, by omega⟩
        rw [← hj.1, this.1]; rfl
      · rename_i hkj
        have := h3 j rc u hj
        simp only [hkj, if_false, Nat.add_zero]
        exact ⟨this.1, fun _ => this.2 (by simpa using hkj)⟩
    · intro j rc u hj
      simp only [List.getElem?_set] at hj
      simp only [users_append _ _ _ _ h2]
      split at hj
      · simp at hj
      · rename_i hkj
        simp only [hkj, if_false, Nat.add_zero]
        exact h4 j rc u hj

theorem cinv_weaken {v : List Nat × List (Int × Bool × Str) × PDict Str Nat} {R : List Nat} (h : CInv v R none) (k : Nat) : CInv v R (some k) :=
  ⟨h.idx, h.rel, fun j rc u hj => ⟨(h.opn j rc u hj).1, fun _ => (h.opn j rc u hj).2 (by simp)⟩, h.cls⟩

theorem users_zero_of_fresh (is R : List Nat) (k : Nat) (h : ∀ j ∈ is, j < k) : users is R k = 0 := by
  unfold users
  rw [List.countP_eq_zero]
  intro j hj
  simp only [Bool.and_eq_true, decide_eq_true_eq, not_and]
  intro hk
  exact absurd (h k (List.mem_of_getElem? hk)) (by omega)

theorem newSock_inv {unq : Str → Str} {st st' : St} {R : List Nat} {u : Str} {net : Net} {k : Nat} (h : CInv (view st) R none)
    (hn : st.newSock unq u net = (.ok k, st')) : k = st.socks.length ∧ CInv (view st') R (some k) ∧
      ∃ uri, sockUri unq u = .ok uri ∧ st' = { st with socks := st.socks ++ [{ uri := uri }] } := by
  unfold St.newSock at hn
  split at hn
  · simp at hn
  · rename_i uri huri
    split at hn
    · simp only [Prod.mk.injEq, Except.ok.injEq] at hn
      obtain ⟨rfl, rfl⟩ := hn
      refine ⟨rfl, ?_, uri, huri, rfl⟩
      obtain ⟨h1, h2, h3, h4⟩ := h
      have hlen : (view st).2.1.length = st.socks.length := by simp [view]
      have hv : view { st with socks := st.socks ++ [{ uri := uri }] } = ((view st).1, (view st).2.1 ++ [(0, false, uri)], st.table) := by
        simp [view]
      rw [hv]
      refine ⟨?_, h2, ?_, ?_⟩
      · intro j hj
        have := h1 j hj
        simp only [List.length_append]; omega
      · intro j rc u hj
        simp only [List.getElem?_append] at hj
        split at hj
        · have := h3 j rc u hj
          exact ⟨this.1, fun _ => this.2 (by simp)⟩
        · rename_i hge
          rw [List.getElem?_singleton] at hj
          split at hj
          · have hjk : j = st.socks.length := by omega
            simp only [Option.some.injEq, Prod.mk.injEq] at hj
            subst hjk
            refine ⟨?_, fun h => absurd rfl h⟩
            rw [users_zero_of_fresh]
            · exact hj.1.symm
            · intro x hx; have := h1 x hx; omega
          · exact absurd hj (by simp)
      · intro j rc u hj
        simp only [List.getElem?_append] at hj
        split at hj
        · exact h4 j rc u hj
        · rw [List.getElem?_singleton] at hj
          split at hj <;> simp at hj
    · simp at hn

theorem unbind_view {st : St} {i : Nat} {c : Inst} {s : Conn.Sock} (hc : st.insts[i]? = some c) (hs : st.socks[c.sock]? = some s)
    (hm : s.nextId ≤ maxInt) :
    if s.unbound then st.unbind i false = (.err .unbound, st)
    else (st.unbind i false).1 = .ok ∧
      view (st.unbind i false).2 = ((view st).1, (view st).2.1.set c.sock (s.refcount - 1, s.refcount - 1 == 0, s.uri),
        if s.refcount - 1 == 0 then st.table.erase s.uri else st.table) := by
  have hlt := get_lt hs
  cases hu : s.unbound with
  | true => simp [St.unbind, hc, hs, hu]
  | false =>
    simp only [Bool.false_eq_true, if_false]
    cases h0 : (s.refcount - 1 == 0) with
    | false =>
      have : st.unbind i false = (.ok, st.setSock c.sock { s with refcount := s.refcount - 1 }) := by
        unfold St.unbind; simp only [hc, hs, hu, Bool.false_eq_true, if_false, h0, Bool.or_self]
      rw [this]
      refine ⟨rfl, ?_⟩
      simp [view, St.setSock, List.map_set, hu]
    | true =>
      have hsend : (st.setSock c.sock { s with refcount := s.refcount - 1 }).send c.sock true =
          (.ok (), (st.setSock c.sock { s with refcount := s.refcount - 1 }).setSock c.sock
            { s with refcount := s.refcount - 1, nextId := s.nextId + 1, sent := s.sent ++ [s.nextId] }) := by
        unfold St.send
        simp [St.setSock, hlt, hm, hu]
      have hget : ((st.setSock c.sock { s with refcount := s.refcount - 1 }).setSock c.sock
            { s with refcount := s.refcount - 1, nextId := s.nextId + 1, sent := s.sent ++ [s.nextId] }).socks[c.sock]? =
          some { s with refcount := s.refcount - 1, nextId := s.nextId + 1, sent := s.sent ++ [s.nextId] } := by
        simp [St.setSock, hlt]
      have : st.unbind i false = (.ok, { (((st.setSock c.sock { s with refcount := s.refcount - 1 }).setSock c.sock
            { s with refcount := s.refcount - 1, nextId := s.nextId + 1, sent := s.sent ++ [s.nextId] }).setSock c.sock
            { s with refcount := s.refcount - 1, nextId := s.nextId + 1, sent := s.sent ++ [s.nextId], unbound := true }) with
              table := st.table.erase s.uri }) := by
        simp only [hu] at hsend hget
        unfold St.unbind
        simp only [hc, hs, hu, Bool.false_eq_true, if_false, h0, Bool.or_true, if_true, hsend, hget]
        rfl
      rw [this]
      refine ⟨rfl, ?_⟩
      simp [view, St.setSock, List.map_set]

theorem unbind_inv {st : St} {R : List Nat} {i : Nat} (h : CInv (view st) R none) (hm : ∀ s ∈ st.socks, s.nextId ≤ maxInt) (hR : i ∉ R) :
    CInv (view (st.unbind i false).2) (R ++ if (st.unbind i false).1 = .ok then [i] else []) none := by
  cases hc : st.insts[i]? with
  | none =>
    have : st.unbind i false = (.err .attributeError, st) := by simp [St.unbind, hc]
    rw [this]; simpa using h
  | some c =>
    have hci : (view st).1[i]? = some c.sock := by simp [view, hc]
    have hlt : c.sock < st.socks.length := by simpa [view] using h.idx c.sock (List.mem_of_getElem? hci)
    have hs : st.socks[c.sock]? = some st.socks[c.sock] := List.getElem?_eq_getElem hlt
    generalize st.socks[c.sock] = s at hs
    have hv := unbind_view hc hs (hm s (List.mem_of_getElem? hs))
    have hk : (view st).2.1[c.sock]? = some (s.refcount, s.unbound, s.uri) := by simp [view, hs]
    have hltv : c.sock < (view st).2.1.length := by simpa [view] using hlt
    cases hu : s.unbound with
    | true => simp only [hu, if_true] at hv; rw [hv]; simpa using h
    | false =>
      simp only [hu, Bool.false_eq_true, if_false] at hv
      rw [hv.2, hv.1]
      simp only [if_true]
      obtain ⟨h1, h2, h3, h4⟩ := h
      have hrc := h3 c.sock _ _ (by rw [hk, hu])
      have hrel := users_release (view st).1 R c.sock i hci hR
      refine ⟨by simpa using h1, ?_, ?_, ?_⟩
      · intro j hj
        simp only [List.mem_append, List.mem_singleton] at hj
        rcases hj with hj | rfl
        · exact h2 j hj
        · exact get_lt hci
      · intro j rc u hj
        simp only [List.getElem?_set] at hj
        have hr := hrel j
        simp only
        split at hj
        · rename_i hkj
          subst hkj
          simp only [Option.some.injEq, Prod.mk.injEq] at hj
          simp only [if_true] at hr
          obtain ⟨hj1, hj2, _⟩ := hj
          have h0 : s.refcount - 1 ≠ 0 := by simpa using hj2
          refine ⟨by omega, fun _ => by omega⟩
        · rename_i hkj
          rw [if_neg (fun e => hkj e.symm)] at hr
          have := h3 j rc u hj
          exact ⟨by omega, fun _ => by have := this.2 (by simp); omega⟩
      · intro j rc u hj
        simp only [List.getElem?_set] at hj
        have hr := hrel j
        simp only
        split at hj
        · rename_i hkj
          subst hkj
          simp only [Option.some.injEq, Prod.mk.injEq] at hj
          simp only [if_true] at hr
          obtain ⟨hj1, hj2, _⟩ := hj
          have h0 : s.refcount - 1 = 0 := by simpa using hj2
          omega
        · rename_i hkj
          rw [if_neg (fun e => hkj e.symm)] at hr
          have := h4 j rc u hj
          omega

theorem attach_nomem {st : St} {R : List Nat} {k : Nat} (f : Bool) (dm : Option Str) (net : Net) (hs : st.socks[k]? = none)
    (h : CInv (view st) R none) : CInv (view (st.attach k f dm net).2) R none := by
  have : st.attach k f dm net = (.err .attributeError, st) := by unfold St.attach; simp [hs]
  rw [this]; exact h

theorem step_inv (unq : Str → Str) (choose : List Str → Option Str) {st : St} {R : List Nat} (e : Conn.Ev) (h : CInv (view st) R none)
    (hq : QuietConn unq choose st R [e]) : CInv (view (st.step unq choose e).2) (R ++ released unq choose st [e]) none := by
  obtain ⟨hm, he, _⟩ := hq
  have hatt : ∀ k f dm net, net.dse ≠ none → CInv (view (st.attach k f dm net).2) R none := by
    intro k f dm net hd
    cases hs : st.socks[k]? with
    | none => exact attach_nomem f dm net hs h
    | some s => exact attach_inv f dm net hs (hm s (List.mem_of_getElem? hs)) hd (cinv_weaken h k) (fun _ => h)
  have hnew : ∀ u (net : Net) k st', st.newSock unq u net = (.ok k, st') → net.dse ≠ none → ∀ t f dm,
      CInv (view (({ st' with table := t } : St).attach k f dm net).2) R none := by
    intro u net k st' hn hd t f dm
    obtain ⟨rfl, hi, uri, _, rfl⟩ := newSock_inv h hn
    refine attach_inv f dm net (s := { uri := uri }) (by simp) (by simp [maxInt]) hd ?_ (by simp)
    exact ⟨hi.idx, hi.rel, hi.opn, hi.cls⟩
  cases e with
  | connect u r f dm net =>
    have : released unq choose st [.connect u r f dm net] = [] := by simp [released]
    rw [this, List.append_nil]
    simp only [St.step, St.connect]
    split
    · split
      · exact hatt _ _ _ _ he.2
      · split
        · rename_i heq
          unfold St.newSock at heq
          split at heq
          · cases heq; exact h
          · split at heq
            · cases heq
            · cases heq; exact h
        · rename_i heq
          exact hnew _ _ _ _ heq he.2 _ _ _
    · split
      · rename_i heq
        unfold St.newSock at heq
        split at heq
        · cases heq; exact h
        · split at heq
          · cases heq
          · cases heq; exact h
      · rename_i k st' heq
        exact hnew _ _ _ _ heq he.2 st'.table _ _
  | share i f dm net =>
    have : released unq choose st [.share i f dm net] = [] := by simp [released]
    rw [this, List.append_nil]
    simp only [St.step]
    split
    · exact h
    · exact hatt _ _ _ _ he.2
  | unbind i force =>
    obtain ⟨rfl, hR⟩ := he
    have hrel : released unq choose st [.unbind i false] = if (st.unbind i false).1 = .ok then [i] else [] := by
      simp only [released, St.step, List.append_nil]
      cases (st.unbind i false).1 <;> simp
    rw [hrel]
    exact unbind_inv h hm hR
  | simpleBind i ok ans =>
    have : released unq choose st [.simpleBind i ok ans] = [] := by simp [released]
    rw [this, List.append_nil]
    simp only [St.step, simpleBind_view]; exact h
  | saslBind i mech f ans anss =>
    have : released unq choose st [.saslBind i mech f ans anss] = [] := by simp [released]
    rw [this, List.append_nil]
    simp only [St.step, saslBind_view]; exact h
  | operation i ok =>
    have : released unq choose st [.operation i ok] = [] := by simp [released]
    rw [this, List.append_nil]
    simp only [St.step, operation_view]; exact h
  | extended i ok =>
    have : released unq choose st [.extended i ok] = [] := by simp [released]
    rw [this, List.append_nil]
    simp only [St.step, extended_view]; exact h

theorem run_inv (unq : Str → Str) (choose : List Str → Option Str) (es : List Conn.Ev) {st : St} {R : List Nat} (h : CInv (view st) R none)
    (hq : QuietConn unq choose st R es) : CInv (view (st.run unq choose es).2) (R ++ released unq choose st es) none := by
  induction es generalizing st R with
  | nil => simpa [St.run, released] using h
  | cons e es ih =>
    have h1 := step_inv unq choose e h ⟨hq.1, hq.2.1, trivial⟩
    have h2 := ih h1 hq.2.2
    have hr : released unq choose st (e :: es) = released unq choose st [e] ++ released unq choose (st.step unq choose e).2 es := by
      simp [released]
    rw [hr, ← List.append_assoc]
    exact h2

/-- **C25.** After every quiet history – hence at every moment of it – a socket is open exactly while some instance that uses it has
not unbound yet.
Missing: histories in which a constructor fails after taking its reference (false then: `c25_failed_init_leaks`). -/
theorem c25_open_while_used_partial (unq : Str → Str) (choose : List Str → Option Str) (es : List Conn.Ev) (hq : QuietConn unq choose {} [] es)
    (k : Nat) (s : Conn.Sock) (hs : (({} : St).run unq choose es).2.socks[k]? = some s) :
    s.unbound = false ↔ ∃ i, Uses (({} : St).run unq choose es).2 (released unq choose {} es) i k := by
  have h := run_inv unq choose es (st := {}) (R := []) ⟨by simp [view], by simp, by simp [view], by simp [view]⟩ hq
  rw [List.nil_append] at h
  generalize (({} : St).run unq choose es).2 = st at h hs
  generalize released unq choose {} es = R at h
  have hk : (view st).2.1[k]? = some (s.refcount, s.unbound, s.uri) := by simp [view, hs]
  have hpos : 0 < users (view st).1 R k ↔ ∃ i, Uses st R i k := by
    unfold users
    rw [List.countP_pos_iff]
    constructor
    · rintro ⟨j, _, hj⟩
      simp only [Bool.and_eq_true, decide_eq_true_eq] at hj
      refine ⟨j, ?_, hj.2⟩
      have := hj.1
      simp only [view, List.getElem?_map, Option.map_eq_some_iff] at this
      exact this
    · rintro ⟨i, ⟨c, hc, hck⟩, hi⟩
      have h1 : (view st).1[i]? = some k := by simp [view, hc, hck]
      exact ⟨i, by simpa using get_lt h1, by simp [h1, hi]⟩
  rw [← hpos]
  cases hu : s.unbound with
  | false => simpa using (h.opn k _ _ (by rw [hk, hu])).2 (by simp)
  | true => simpa using h.cls k _ _ (by rw [hk, hu])

/-! ### Reconnecting -/

/-- the table of shared sockets: distinct URIs, each leading to an open socket with that URI -/
def TInv (st : St) : Prop :=
  (st.table.keys).Nodup ∧ ∀ u k, st.table.get? u = some k → ∃ s, st.socks[k]? = some s ∧ s.uri = u ∧ s.unbound = false

/-- Every URI given to a sharing connect is in the form the socket itself uses: `scheme://netloc`, nothing percent-encoded. -/
def Canonical (unq : Str → Str) : Conn.Ev → Prop
  | .connect u true _ _ _ => sockUri unq u = .ok u
  | _ => True

theorem tinv_view {st st' : St} (hv : view st' = view st) (h : TInv st) : TInv st' := by
  have ht : st'.table = st.table := congrArg (fun v => v.2.2) hv
  have hs : st'.socks.map (fun s => (s.refcount, s.unbound, s.uri)) = st.socks.map (fun s => (s.refcount, s.unbound, s.uri)) :=
    congrArg (fun v => v.2.1) hv
  refine ⟨by rw [ht]; exact h.1, ?_⟩
  intro u k hk
  rw [ht] at hk
  obtain ⟨s, h1, h2, h3⟩ := h.2 u k hk
  have := congrArg (fun l => l[k]?) hs
  simp only [List.getElem?_map, h1, Option.map_some] at this
  obtain ⟨s', e1, e2⟩ := Option.map_eq_some_iff.mp this
  simp only [Prod.mk.injEq] at e2
  exact ⟨s', e1, by rw [e2.2.2, h2], by rw [e2.2.1, h3]⟩

theorem attach_tinv {st : St} (k : Nat) (f : Bool) (dm : Option Str) (net : Net) (hm : ∀ s ∈ st.socks, s.nextId ≤ maxInt) (hd : net.dse ≠ none)
    (h : TInv st) : TInv (st.attach k f dm net).2 := by
  cases hs : st.socks[k]? with
  | none =>
    have : st.attach k f dm net = (.err .attributeError, st) := by unfold St.attach; simp [hs]
    rw [this]; exact h
  | some s =>
    have hv := attach_view st k f dm net s hs (hm s (List.mem_of_getElem? hs)) hd
    have hlt := get_lt hs
    have key : ∀ st', (view st').2.2 = st.table → (view st').2.1 = (view st).2.1.set k (s.refcount + 1, s.unbound, s.uri) → TInv st' := by
      intro st' ht hss
      have ht' : st'.table = st.table := ht
      refine ⟨by rw [ht']; exact h.1, ?_⟩
      intro u j hj
      rw [ht'] at hj
      obtain ⟨s2, h1, h2, h3⟩ := h.2 u j hj
      have := congrArg (fun l => l[j]?) hss
      simp only [view, List.getElem?_map, List.getElem?_set, List.length_map, hlt, h1, Option.map_some, if_true] at this
      split at this
      · rename_i hkj
        subst hkj
        rw [hs] at h1
        cases h1
        obtain ⟨s', e1, e2⟩ := Option.map_eq_some_iff.mp this
        simp only [Prod.mk.injEq] at e2
        exact ⟨s', e1, by rw [e2.2.2, h2], by rw [e2.2.1, h3]⟩
      · obtain ⟨s', e1, e2⟩ := Option.map_eq_some_iff.mp this
        simp only [Prod.mk.injEq] at e2
        exact ⟨s', e1, by rw [e2.2.2, h2], by rw [e2.2.1, h3]⟩
    cases hu : s.unbound with
    | true => simp only [hu, if_true] at hv; exact key _ (by rw [hv.2]) (by rw [hv.2, hu])
    | false => simp only [hu, Bool.false_eq_true, if_false] at hv; exact key _ (by rw [hv.2]) (by rw [hv.2, hu])

theorem step_tinv (unq : Str → Str) (choose : List Str → Option Str) {st : St} {R : List Nat} (e : Conn.Ev) (h : TInv st) (hi : CInv (view st) R none)
    (hq : QuietConn unq choose st R [e]) (hc : Canonical unq e) : TInv (st.step unq choose e).2 := by
  obtain ⟨hm, he, _⟩ := hq
  have hmnew : ∀ uri, ∀ s ∈ st.socks ++ [{ uri := uri }], s.nextId ≤ maxInt := by
    intro uri s hs
    simp only [List.mem_append, List.mem_singleton] at hs
    rcases hs with hs | rfl
    · exact hm s hs
    · simp [maxInt]
  have herr : ∀ u net e st', st.newSock unq u net = (.error e, st') → st' = st := by
    intro u net e st' heq
    unfold St.newSock at heq
    split at heq
    · cases heq; rfl
    · split at heq
      · cases heq
      · cases heq; rfl
  have hold : ∀ (uri : Str) u k, st.table.get? u = some k → ∃ s : Conn.Sock, (st.socks ++ [{ uri := uri }])[k]? = some s ∧ s.uri = u ∧ s.unbound = false := by
    intro uri u k hk
    obtain ⟨s, h1, h2⟩ := h.2 u k hk
    exact ⟨s, by rw [List.getElem?_append_left (get_lt h1)]; exact h1, h2⟩
  cases e with
  | connect u r f dm net =>
    simp only [St.step, St.connect]
    split
    · rename_i hr
      subst hr
      simp only [Canonical] at hc
      split
      · exact attach_tinv _ _ _ _ hm he.2 h
      · rename_i hnone
        split
        · rename_i heq; rw [herr _ _ _ _ heq]; exact h
        · rename_i k st' heq
          obtain ⟨rfl, _, uri, huri, rfl⟩ := newSock_inv hi heq
          rw [hc] at huri
          cases huri
          refine attach_tinv _ _ _ _ (hmnew u) he.2 ⟨PDict.nodup_set _ _ _ h.1, ?_⟩
          intro v k hk
          simp only [PDict.get?_set] at hk
          split at hk
          · rename_i hv; cases hk; exact ⟨{ uri := u }, by simp, hv.symm, rfl⟩
          · exact hold u v k hk
    · split
      · rename_i heq; rw [herr _ _ _ _ heq]; exact h
      · rename_i k st' heq
        obtain ⟨rfl, _, uri, huri, rfl⟩ := newSock_inv hi heq
        exact attach_tinv _ _ _ _ (hmnew uri) he.2 ⟨h.1, fun v k hk => hold uri v k hk⟩
  | share i f dm net =>
    simp only [St.step]
    split
    · exact h
    · exact attach_tinv _ _ _ _ hm he.2 h
  | unbind i force =>
    obtain ⟨rfl, hR⟩ := he
    simp only [St.step]
    cases hcn : st.insts[i]? with
    | none =>
      have : st.unbind i false = (.err .attributeError, st) := by simp [St.unbind, hcn]
      rw [this]; exact h
    | some c =>
      cases hs : st.socks[c.sock]? with
      | none =>
        have : st.unbind i false = (.err .attributeError, st) := by simp [St.unbind, hcn, hs]
        rw [this]; exact h
      | some s =>
        have hv := unbind_view hcn hs (hm s (List.mem_of_getElem? hs))
        have hlt := get_lt hs
        cases hu : s.unbound with
        | true => simp only [hu, if_true] at hv; rw [hv]; exact h
        | false =>
          simp only [hu, Bool.false_eq_true, if_false] at hv
          have hvv := hv.2
          generalize (st.unbind i false).2 = st' at hvv
          have ht : st'.table = if s.refcount - 1 == 0 then st.table.erase s.uri else st.table := congrArg (fun v => v.2.2) hvv
          have hss : (view st').2.1 = (view st).2.1.set c.sock (s.refcount - 1, s.refcount - 1 == 0, s.uri) := congrArg (fun v => v.2.1) hvv
          have hget : ∀ v k, st'.table.get? v = some k → st.table.get? v = some k ∧ ((s.refcount - 1 == 0) = true → v ≠ s.uri) := by
            intro v k hk
            rw [ht] at hk
            split at hk
            · rw [PDict.get?_erase _ _ _ h.1] at hk
              split at hk
              · exact absurd hk (by simp)
              · rename_i hne; exact ⟨hk, fun _ => hne⟩
            · rename_i h0; exact ⟨hk, fun h1 => absurd h1 h0⟩
          refine ⟨?_, ?_⟩
          · rw [ht]; split
            · exact PDict.nodup_erase _ _ h.1
            · exact h.1
          · intro v j hj
            obtain ⟨hj1, hj2⟩ := hget v j hj
            obtain ⟨s2, h1, h2, h3⟩ := h.2 v j hj1
            have := congrArg (fun l => l[j]?) hss
            simp only [view, List.getElem?_map, List.getElem?_set, List.length_map, hlt, h1, Option.map_some, if_true] at this
            split at this
            · rename_i hkj
              subst hkj
              rw [hs] at h1
              cases h1
              obtain ⟨s', e1, e2⟩ := Option.map_eq_some_iff.mp this
              simp only [Prod.mk.injEq] at e2
              refine ⟨s', e1, by rw [e2.2.2, h2], ?_⟩
              cases h0 : (s.refcount - 1 == 0) with
              | true => exact absurd h2.symm (hj2 h0)
              | false => rw [e2.2.1, h0]
            · obtain ⟨s', e1, e2⟩ := Option.map_eq_some_iff.mp this
              simp only [Prod.mk.injEq] at e2
              exact ⟨s', e1, by rw [e2.2.2, h2], by rw [e2.2.1, h3]⟩
  | simpleBind i ok ans => exact tinv_view (simpleBind_view _ _ _ _) h
  | saslBind i mech f ans anss => exact tinv_view (saslBind_view _ _ _ _ _ _ _) h
  | operation i ok => exact tinv_view (operation_view _ _ _) h
  | extended i ok => exact tinv_view (extended_view _ _ _) h

theorem run_tinv (unq : Str → Str) (choose : List Str → Option Str) (es : List Conn.Ev) {st : St} {R : List Nat} (h : TInv st) (hi : CInv (view st) R none)
    (hq : QuietConn unq choose st R es) (hc : ∀ e ∈ es, Canonical unq e) : TInv (st.run unq choose es).2 := by
  induction es generalizing st R with
  | nil => exact h
  | cons e es ih =>
    have hq1 : QuietConn unq choose st R [e] := ⟨hq.1, hq.2.1, trivial⟩
    exact ih (step_tinv unq choose e h hi hq1 (hc e (by simp))) (step_inv unq choose e hi hq1) hq.2.2 (fun x hx => hc x (List.mem_cons_of_mem _ hx))

/-- **C25, reconnecting.** After every quiet history whose shared connects name the server in canonical form, connecting again
always succeeds: it gives an instance on an open socket – the shared one if there is one, else a new one – and never a closed one.
Missing: URIs in another form, for which it is false (`c25_no_scheme`). -/
theorem c25_reconnect_partial (unq : Str → Str) (choose : List Str → Option Str) (es : List Conn.Ev) (u : Str) (fatal : Bool) (dm : Option Str) (net : Net)
    (hq : QuietConn unq choose {} [] (es ++ [.connect u true fatal dm net]))
    (hc : ∀ e ∈ es ++ [.connect u true fatal dm net], Canonical unq e) (st : St) (hst : st = (({} : St).run unq choose es).2) :
    (st.step unq choose (.connect u true fatal dm net)).1 = .ok ∧
    ∃ c s, (st.step unq choose (.connect u true fatal dm net)).2.insts = st.insts ++ [c] ∧
      (st.step unq choose (.connect u true fatal dm net)).2.socks[c.sock]? = some s ∧ s.unbound = false ∧ s.uri = u := by
  have hsplit : ∀ (es : List Conn.Ev) (st : St) (R : List Nat) e, QuietConn unq choose st R (es ++ [e]) →
      QuietConn unq choose st R es ∧ QuietConn unq choose (st.run unq choose es).2 (R ++ released unq choose st es) [e] := by
    intro es
    induction es with
    | nil => intro st R e h; simpa [St.run, released] using ⟨trivial, h⟩
    | cons x es ih =>
      intro st R e h
      have := ih _ _ e h.2.2
      refine ⟨⟨h.1, h.2.1, this.1⟩, ?_⟩
      have hr : released unq choose st (x :: es) = released unq choose st [x] ++ released unq choose (st.step unq choose x).2 es := by
        simp [released]
      rw [hr, ← List.append_assoc]
      exact this.2
  obtain ⟨hq1, hq2⟩ := hsplit es {} [] _ hq
  have hi := run_inv unq choose es (st := {}) (R := []) ⟨by simp [view], by simp, by simp [view], by simp [view]⟩ hq1
  have ht := run_tinv unq choose es (st := {}) (R := []) ⟨by simp [PDict.keys], by simp⟩
    ⟨by simp [view], by simp, by simp [view], by simp [view]⟩ hq1 (fun e he => hc e (by simp [he]))
  have hcan : sockUri unq u = .ok u := hc (.connect u true fatal dm net) (by simp)
  rw [← hst] at hq2 hi ht
  clear hsplit hq hq1 hst hc
  obtain ⟨hm, ⟨hdial, hd⟩, _⟩ := hq2
  simp only [St.step, St.connect, if_true]
  have fin : ∀ (st0 : St) k (s : Conn.Sock), st0.socks[k]? = some s → s.nextId ≤ maxInt → s.unbound = false → s.uri = u → st0.insts = st.insts →
      (st0.attach k fatal dm net).1 = .ok ∧ ∃ c s, (st0.attach k fatal dm net).2.insts = st.insts ++ [c] ∧
      (st0.attach k fatal dm net).2.socks[c.sock]? = some s ∧ s.unbound = false ∧ s.uri = u := by
    intro st0 k s hs hn hu huri hin
    have hlt := get_lt hs
    obtain ⟨ms, hms⟩ := Option.ne_none_iff_exists'.mp hd
    have hsend : (st0.setSock k { s with refcount := s.refcount + 1 }).send k true =
        (.ok (), (st0.setSock k { s with refcount := s.refcount + 1 }).setSock k
          { s with refcount := s.refcount + 1, nextId := s.nextId + 1, sent := s.sent ++ [s.nextId] }) := by
      unfold St.send
      simp [St.setSock, hlt, hn, hu]
    have : st0.attach k fatal dm net = (.ok, { (st0.setSock k { s with refcount := s.refcount + 1 }).setSock k
          { s with refcount := s.refcount + 1, nextId := s.nextId + 1, sent := s.sent ++ [s.nextId] } with
            insts := st0.insts ++ [⟨k, some ms, dm, fatal⟩] }) := by
      simp only [hu] at hsend
      unfold St.attach
      simp only [hs, hu, Bool.false_eq_true, if_false, hsend, hms]
      rfl
    rw [this, hin]
    exact ⟨rfl, _, { s with refcount := s.refcount + 1, nextId := s.nextId + 1, sent := s.sent ++ [s.nextId] }, rfl, by simp [St.setSock, hlt], hu, huri⟩
  cases hg : st.table.get? u with
  | some k =>
    obtain ⟨s, h1, h2, h3⟩ := ht.2 u k hg
    exact fin st k s h1 (hm s (List.mem_of_getElem? h1)) h3 h2 rfl
  | none =>
    have hn : st.newSock unq u net = (.ok st.socks.length, { st with socks := st.socks ++ [{ uri := u }] }) := by
      unfold St.newSock; simp [hcan, hdial]
    simp only [hn]
    exact fin _ st.socks.length { uri := u } (by simp) (by simp [maxInt]) rfl rfl rfl

/-- a connect with everything going well -/
def up : Net := ⟨true, some []⟩

/-- two instances share, both unbind, the socket is closed and the next connect opens a new one -/
example : let h : List Conn.Ev := [.connect (str "ldap://h") true true none up, .connect (str "ldap://h") true true none up, .unbind 0 false,
      .operation 1 true, .unbind 1 false, .connect (str "ldap://h") true true none up]
    (({} : St).run id List.head? h).1 = [.ok, .ok, .ok, .ok, .ok, .ok] ∧
    (({} : St).run id List.head? h).2.socks.map Sock.unbound = [true, false] := by decide

/-- the hypotheses of `c25_open_while_used_partial` and `c25_reconnect_partial` are met by it -/
example : QuietConn id List.head? {} [] [.connect (str "ldap://h") true true none up, .connect (str "ldap://h") true true none up, .unbind 0 false,
      .unbind 1 false, .connect (str "ldap://h") true true none up] ∧ sockUri id (str "ldap://h") = .ok (str "ldap://h") := by
  refine ⟨⟨by decide, by decide, by decide, by decide, by decide, by decide, by decide, by decide, by decide, by decide, trivial⟩, by decide⟩

/-- **C25 fails for a URI without scheme (finding):** the table is keyed by the string given, the entry is removed by the socket's own URI.
After the last unbind the closed socket stays in the table and every later connect is handed it. -/
theorem c25_no_scheme : (({} : St).run id List.head? [.connect (str "h") true true none up, .unbind 0 false, .connect (str "h") true true none up]).1
    = [.ok, .ok, .err .unbound] := by decide

/-- **C25 needs the "at most once" (finding):** unbinding the same instance twice closes the socket another instance is using. -/
theorem c25_double_unbind : (({} : St).run id List.head? [.connect (str "ldap://h") true true none up, .connect (str "ldap://h") true true none up,
      .unbind 0 false, .unbind 0 false, .operation 1 true]).1 = [.ok, .ok, .ok, .ok, .err .unbound] := by decide

/-- **C25 needs successful construction (finding):** a constructor that fails after taking its reference never gives it back, so the socket is
never closed although its only user unbinds. -/
theorem c25_failed_init_leaks : (({} : St).run id List.head? [.connect (str "ldap://h") true true none up, .connect (str "ldap://h") true true none ⟨true, none⟩,
      .unbind 0 false]).2.socks.map Sock.unbound = [false] := by decide

/-- **Finding:** a private connection to the same URI removes the shared socket from the table when it is closed; the next sharing
connect does not share. -/
theorem c25_private_evicts : (({} : St).run id List.head? [.connect (str "ldap://h") true true none up, .connect (str "ldap://h") false true none up,
      .unbind 1 false, .connect (str "ldap://h") true true none up]).2.socks.map Sock.unbound = [false, true, false] := by decide

/-- the text has no "://" in it -/
def NoScheme (s : Str) : Prop := ∀ a b, s ≠ a ++ str "://" ++ b

theorem splitScheme_go_none (acc s : Str) (h : NoScheme s) : splitScheme.go acc s = [acc ++ s] := by
  induction s generalizing acc with
  | nil => simp [splitScheme.go]
  | cons c t ih =>
    have ht : NoScheme t := fun a b e => h (c :: a) b (by rw [e]; rfl)
    rw [splitScheme.go.eq_def]
    split
    · rename_i heq
      cases heq
      exact absurd rfl (h [] _)
    · rename_i heq
      cases heq
      rw [ih _ ht]; simp
    · rename_i heq; cases heq

theorem splitScheme_go_one (acc a b : Str) (ha : ∀ x y, a ++ [':', '/'] ≠ x ++ str "://" ++ y) (hb : NoScheme b) :
    splitScheme.go acc (a ++ str "://" ++ b) = [acc ++ a, b] := by
  induction a generalizing acc with
  | nil =>
    show splitScheme.go acc (':' :: '/' :: '/' :: b) = _
    rw [splitScheme.go, splitScheme_go_none _ _ hb]; simp
  | cons c t ih =>
    have ht : ∀ x y, t ++ [':', '/'] ≠ x ++ str "://" ++ y := fun x y e => ha (c :: x) y (by rw [List.cons_append, e]; rfl)
    rw [List.cons_append, List.cons_append, splitScheme.go.eq_def]
    split
    · rename_i q heq
      obtain ⟨e0, h2⟩ := List.cons.inj heq
      subst e0
      match t, h2 with
      | [], h2 => exact absurd h2 (by simp)
      | ['/'], h2 => exact absurd h2 (by simp)
      | '/' :: '/' :: t', _ => exact absurd rfl (ha [] (t' ++ [':', '/']))
      | x :: y :: t', h2 =>
        have e1 : x = '/' := by simpa using (List.cons.inj h2).1
        have e2 : y = '/' := by simpa using (List.cons.inj (List.cons.inj h2).2).1
        subst e1; subst e2
        exact absurd rfl (ha [] (t' ++ [':', '/']))
    · rename_i heq
      cases heq
      rw [ih _ ht]; simp
    · rename_i heq; cases heq

/-- C25: what a new connection is opened to. A server given without a scheme is reached by plain LDAP, or by a local socket when it starts with a slash; a
given scheme is kept. The rest is percent-decoded. (The hypotheses say that "://" occurs never, resp. exactly once.) -/
theorem c25_default_scheme (unq : Str → Str) (st : St) (u : Str) (net : Net) (hd : net.dial = true) (h : NoScheme u) (hu : unq u ≠ []) :
    ∃ s, (st.newSock unq u net).1 = .ok st.socks.length ∧ (st.newSock unq u net).2.socks = st.socks ++ [s] ∧
      s.uri = (if (unq u).head? = some '/' then str "ldapi://" else str "ldap://") ++ unq u ∧ s.bound = false ∧ s.unbound = false ∧ s.sent = [] := by
  cases hc : unq u with
  | nil => exact absurd hc hu
  | cons c r =>
    refine ⟨{ uri := (if c = '/' then str "ldapi" else str "ldap") ++ str "://" ++ (c :: r) }, ?_⟩
    simp only [St.newSock, sockUri, splitScheme, splitScheme_go_none _ _ h, List.nil_append, hc, hd, if_true, List.head?_cons, Option.some.injEq]
    refine ⟨trivial, trivial, ?_, trivial, trivial, trivial⟩
    split <;> rfl

theorem c25_given_scheme (unq : Str → Str) (st : St) (sch rest : Str) (net : Net) (hd : net.dial = true)
    (hs : ∀ x y, sch ++ [':', '/'] ≠ x ++ str "://" ++ y) (hr : NoScheme rest) :
    ∃ s, (st.newSock unq (sch ++ str "://" ++ rest) net).1 = .ok st.socks.length ∧
      (st.newSock unq (sch ++ str "://" ++ rest) net).2.socks = st.socks ++ [s] ∧
      s.uri = sch ++ str "://" ++ unq rest ∧ s.bound = false ∧ s.unbound = false ∧ s.sent = [] := by
  refine ⟨{ uri := sch ++ str "://" ++ unq rest }, ?_⟩
  have := splitScheme_go_one [] sch rest hs hr
  simp only [St.newSock, sockUri, splitScheme, this, List.nil_append, hd, if_true, and_self]

example : NoScheme (str "/var/run/ldapi") := by
  intro a b h
  have : ':' ∈ str "/var/run/ldapi" := by rw [h]; simp
  revert this; decide

/-! ## C26 -/

/-- **C26, closed connections:** once a connection is unbound every operation, bind and unbind raises `ConnectionUnbound` and changes
nothing – in particular it sends nothing. -/
theorem c26_closed (choose : List Str → Option Str) (st : St) (i : Nat) (c : Inst) (s : Conn.Sock) (hc : st.insts[i]? = some c)
    (hs : st.socks[c.sock]? = some s) (hu : s.unbound = true) :
    (∀ ok, st.operation i ok = (.err .unbound, st)) ∧
    (∀ ok ans, st.simpleBind i ok ans = (.err .unbound, st)) ∧
    (∀ m f a anss, st.saslBind choose i m f a anss = (.err .unbound, st, none)) ∧
    (∀ force, st.unbind i force = (.err .unbound, st)) := by
  simp [St.operation, St.simpleBind, St.saslBind, St.unbind, hc, hs, hu]

/-- **C26 fails for extended requests (finding):** they do not check; the caller gets the socket's own error. At least nothing is sent. -/
theorem c26_extended_unchecked (st : St) (i : Nat) (c : Inst) (s : Conn.Sock) (hc : st.insts[i]? = some c)
    (hs : st.socks[c.sock]? = some s) (hu : s.unbound = true) (ok : Bool) :
    (st.extended i ok).1 ≠ .err .unbound ∧ (st.extended i ok).1 ≠ .ok ∧
    (st.extended i ok).2.socks[c.sock]? = some { s with nextId := s.nextId + 1 } := by
  have hsend : ∃ e, e ≠ .unbound ∧ st.send c.sock ok = (.error e, st.setSock c.sock { s with nextId := s.nextId + 1 }) := by
    unfold St.send
    simp only [hs, hu, if_true]
    split
    · exact ⟨.typeError, by decide, rfl⟩
    · exact ⟨.osError, by decide, rfl⟩
  obtain ⟨e, he, hsend⟩ := hsend
  unfold St.extended
  simp only [hc, hsend]
  refine ⟨by simpa using he, by simp, ?_⟩
  simp [St.setSock, get_lt hs]

/-- **C26, simple bind:** refused without sending when the connection is bound already; otherwise one request goes out, and the connection
is bound afterwards exactly when the server answered success, which is exactly when the call succeeds. -/
theorem c26_simple_bind (st : St) (i : Nat) (c : Inst) (s : Conn.Sock) (hc : st.insts[i]? = some c)
    (hs : st.socks[c.sock]? = some s) (hu : s.unbound = false) (ans : Option Ans) (hm : s.nextId ≤ maxInt) :
    (s.bound = true → ∀ ok, st.simpleBind i ok ans = (.err .alreadyBound, st)) ∧
    (s.bound = false →
      (st.simpleBind i true ans).2.socks[c.sock]? =
        some { s with bound := decide (ans = some .success), nextId := s.nextId + 1, sent := s.sent ++ [s.nextId] } ∧
      ((st.simpleBind i true ans).1 = .ok ↔ ans = some .success) ∧
      ((st.simpleBind i true ans).1 = .waits ↔ ans = none)) := by
  have hlt := get_lt hs
  refine ⟨?_, ?_⟩
  · intro hb ok
    simp [St.simpleBind, hc, hs, hu, hb]
  · intro hb
    have hsend : st.send c.sock true = (.ok (), st.setSock c.sock { s with nextId := s.nextId + 1, sent := s.sent ++ [s.nextId] }) := by
      unfold St.send
      simp [hs, hm, hu]
    have hget : (st.setSock c.sock { s with nextId := s.nextId + 1, sent := s.sent ++ [s.nextId] }).socks[c.sock]? =
        some { s with nextId := s.nextId + 1, sent := s.sent ++ [s.nextId] } := by simp [St.setSock, hlt]
    unfold St.simpleBind
    simp only [hc, hs, hu, hb, Bool.false_eq_true, if_false, hsend]
    cases ans with
    | none => simp [St.setSock, hlt]
    | some a => cases a <;> simp [St.setSock, hlt]

theorem send_bound (st : St) (i : Nat) (ok : Bool) : (st.send i ok).2.socks.map Sock.bound = st.socks.map Sock.bound := by
  unfold St.send
  cases hs : st.socks[i]? with
  | none => rfl
  | some s =>
    have : ∀ s' : Conn.Sock, s'.bound = s.bound → (st.setSock i s').socks.map Sock.bound = st.socks.map Sock.bound := by
      intro s' h
      apply List.ext_getElem?
      intro j
      simp only [St.setSock, List.map_set, List.getElem?_set, List.length_map]
      split
      · subst_vars; rw [if_pos (get_lt hs), List.getElem?_map, hs, h]; rfl
      · rfl
    simp only []
    split
    · exact this _ rfl
    · split <;> exact this _ rfl

/-- **C26:** nothing but a bind changes whether a connection is bound. -/
theorem c26_only_bind_binds (unq : Str → Str) (choose : List Str → Option Str) (st : St) (e : Conn.Ev)
    (he : (∀ i ok a, e ≠ .simpleBind i ok a) ∧ (∀ i m f a l, e ≠ .saslBind i m f a l)) (k : Nat) (s : Conn.Sock) (hs : st.socks[k]? = some s) :
    ∃ s', (st.step unq choose e).2.socks[k]? = some s' ∧ s'.bound = s.bound := by
  suffices H : ∃ l, (st.step unq choose e).2.socks.map Sock.bound = st.socks.map Sock.bound ++ l by
    obtain ⟨l, hl⟩ := H
    have := congrArg (fun l => l[k]?) hl
    simp only [List.getElem?_map, List.getElem?_append_left (show k < (st.socks.map Sock.bound).length by simpa using get_lt hs), hs,
      Option.map_some, Option.map_eq_some_iff] at this
    exact this
  have hset : ∀ (st : St) (i : Nat) (s s' : Conn.Sock), st.socks[i]? = some s → s'.bound = s.bound →
      (st.setSock i s').socks.map Sock.bound = st.socks.map Sock.bound := by
    intro st i s s' hs h
    apply List.ext_getElem?
    intro j
    simp only [St.setSock, List.map_set, List.getElem?_set, List.length_map]
    split
    · subst_vars; rw [if_pos (get_lt hs), List.getElem?_map, hs, h]; rfl
    · rfl
  have hatt : ∀ (st : St) k f dm net, (st.attach k f dm net).2.socks.map Sock.bound = st.socks.map Sock.bound := by
    intro st k f dm net
    unfold St.attach
    cases hk : st.socks[k]? with
    | none => rfl
    | some s =>
      have h1 := hset st k s { s with refcount := s.refcount + 1 } hk rfl
      have h2 := send_bound (st.setSock k { s with refcount := s.refcount + 1 }) k true
      simp only []
      split
      · exact h1
      · split
        · rename_i heq; rw [heq] at h2; exact h2.trans h1
        · rename_i heq; rw [heq] at h2
          split <;> exact h2.trans h1
  have hnew : ∀ u net r st', st.newSock unq u net = (r, st') → ∃ l, st'.socks.map Sock.bound = st.socks.map Sock.bound ++ l := by
    intro u net r st' heq
    unfold St.newSock at heq
    split at heq
    · cases heq; exact ⟨[], by simp⟩
    · split at heq
      · cases heq; exact ⟨[false], by simp⟩
      · cases heq; exact ⟨[], by simp⟩
  cases e with
  | connect u r f dm net =>
    simp only [St.step, St.connect]
    split
    · split
      · exact ⟨[], by simp [hatt]⟩
      · split
        · rename_i heq; exact hnew _ _ _ _ heq
        · rename_i heq
          obtain ⟨l, hl⟩ := hnew _ _ _ _ heq
          exact ⟨l, by rw [hatt]; exact hl⟩
    · split
      · rename_i heq; exact hnew _ _ _ _ heq
      · rename_i heq
        obtain ⟨l, hl⟩ := hnew _ _ _ _ heq
        exact ⟨l, by rw [hatt]; exact hl⟩
  | share i f dm net =>
    simp only [St.step]
    split
    · exact ⟨[], by simp⟩
    · exact ⟨[], by simp [hatt]⟩
  | unbind i force =>
    refine ⟨[], ?_⟩
    simp only [St.step, List.append_nil]
    unfold St.unbind
    split
    · rfl
    · split
      · rfl
      · rename_i c _ _ s hs
        have h1 := hset st c.sock s { s with refcount := s.refcount - 1 } hs rfl
        have h2 := send_bound (st.setSock c.sock { s with refcount := s.refcount - 1 }) c.sock true
        simp only []
        split
        · rfl
        · split
          · split
            · rename_i heq; rw [heq] at h2; exact h2.trans h1
            · rename_i heq; rw [heq] at h2
              split
              · exact h2.trans h1
              · rename_i s' hs'
                exact (hset _ _ _ { s' with unbound := true } hs' rfl).trans (h2.trans h1)
          · exact h1
  | simpleBind i ok a => exact absurd rfl (he.1 i ok a)
  | saslBind i m f a l => exact absurd rfl (he.2 i m f a l)
  | operation i ok =>
    refine ⟨[], ?_⟩
    simp only [St.step, List.append_nil]
    unfold St.operation
    split
    · rfl
    · split
      · rfl
      · rename_i c _ _ s hs
        have h2 := send_bound st c.sock ok
        split
        · rfl
        · split <;> (rename_i heq; rw [heq] at h2; exact h2)
  | extended i ok =>
    refine ⟨[], ?_⟩
    simp only [St.step, List.append_nil]
    unfold St.extended
    split
    · rfl
    · rename_i c _
      have h2 := send_bound st c.sock ok
      split <;> (rename_i heq; rw [heq] at h2; exact h2)

theorem saslLoop_bound (st : St) (i k : Nat) (a : Option (List Str)) (anss : List Ans) (h : .success ∉ anss) :
    (st.saslLoop i k a anss).2.socks.map Sock.bound = st.socks.map Sock.bound ∧ (st.saslLoop i k a anss).1 ≠ .ok := by
  induction anss generalizing st with
  | nil =>
    have h2 := send_bound st k true
    unfold St.saslLoop
    split <;> (rename_i heq; rw [heq] at h2; exact ⟨h2, by simp⟩)
  | cons x anss ih =>
    have h2 := send_bound st k true
    have hx : x ≠ .success := fun e => h (by simp [e])
    have hr : .success ∉ anss := fun e => h (List.mem_cons_of_mem _ e)
    unfold St.saslLoop
    split
    · rename_i heq; rw [heq] at h2; exact ⟨h2, by simp⟩
    · rename_i heq; rw [heq] at h2
      split
      · obtain ⟨i1, i2⟩ := ih _ hr
        exact ⟨i1.trans h2, i2⟩
      · exact ⟨h2, by simp⟩
      · exact ⟨h2, by simp⟩
      · exact absurd rfl hx

/-- **C26, SASL bind (partial):** refused without effect on a bound connection; and as long as the server never answers success, the call does not succeed and no
connection becomes bound. (A bind the server accepts: see `c27_downgrade_partial`; missing here is the failed re-check, after which the connection *is* bound.) -/
theorem c26_sasl_bind_partial (choose : List Str → Option Str) (st : St) (i : Nat) (c : Inst) (s : Conn.Sock) (hc : st.insts[i]? = some c)
    (hs : st.socks[c.sock]? = some s) (hu : s.unbound = false) (mech : Option Str) (f a : Option (List Str)) (anss : List Ans) :
    (s.bound = true → st.saslBind choose i mech f a anss = (.err .alreadyBound, st, none)) ∧
    (s.bound = false → .success ∉ anss →
      (st.saslBind choose i mech f a anss).1 ≠ .ok ∧
      (st.saslBind choose i mech f a anss).2.1.socks.map Sock.bound = st.socks.map Sock.bound) := by
  refine ⟨fun hb => by simp [St.saslBind, hc, hs, hu, hb], fun hb hn => ?_⟩
  have main : ∀ (got : Except Err (List Str) × St), got.2.socks.map Sock.bound = st.socks.map Sock.bound → ∀ (r : Res × St × Option Str), r = (match got with
              | (.error e, st) => ((Res.err e, st, none) : Res × St × Option Str)
              | (.ok ms, st) =>
                match candidates ms mech c.defaultMech with
                | .error e => (.err e, st, none)
                | .ok cand =>
                  match choose cand with
                  | none => (.err .saslError, st, none)
                  | some m => ((st.saslLoop i c.sock a anss).1, (st.saslLoop i c.sock a anss).2, some m)) →
      r.1 ≠ .ok ∧ r.2.1.socks.map Sock.bound = st.socks.map Sock.bound := by
    rintro ⟨g, st1⟩ hg r hr
    cases g with
    | error e => subst hr; exact ⟨by simp, hg⟩
    | ok ms =>
      simp only [] at hr
      split at hr
      · subst hr; exact ⟨by simp, hg⟩
      · split at hr
        · subst hr; exact ⟨by simp, hg⟩
        · subst hr
          obtain ⟨h1, h2⟩ := saslLoop_bound st1 i c.sock a anss hn
          exact ⟨h2, h1.trans hg⟩
  unfold St.saslBind
  simp only [hc, hs, hu, hb, Bool.false_eq_true, if_false]
  refine main _ ?_ _ rfl
  have h2 := send_bound st c.sock true
  split
  · rfl
  · split
    · rename_i heq; rw [heq] at h2; exact h2
    · rename_i heq; rw [heq] at h2
      split <;> exact h2

/-- a rejected password, then a good one, then a third attempt -/
example : (({} : St).run id List.head? [.connect (str "ldap://h") true true none up, .simpleBind 0 true (some .failure), .simpleBind 0 true (some .success),
    .simpleBind 0 true (some .success), .unbind 0 false, .operation 0 true]).1 = [.ok, .err .ldapError, .ok, .err .alreadyBound, .ok, .err .unbound] := by decide

/-! ## C27 -/

/-- the socket after `n` more messages went out on it -/
def sentMore (s : Conn.Sock) (n : Nat) : Conn.Sock := { s with nextId := s.nextId + n, sent := s.sent ++ List.range' s.nextId n }

theorem send_more (st : St) (k : Nat) (s : Conn.Sock) (hs : st.socks[k]? = some s) (hu : s.unbound = false) (hm : s.nextId ≤ maxInt) :
    st.send k true = (.ok (), st.setSock k (sentMore s 1)) := by
  unfold St.send sentMore
  simp [hs, hm, hu]

theorem setSock_get (st : St) (k : Nat) (s s' : Conn.Sock) (hs : st.socks[k]? = some s) : (st.setSock k s').socks[k]? = some s' := by
  simp [St.setSock, get_lt hs]

theorem setSock_setSock (st : St) (k : Nat) (s s' : Conn.Sock) : (st.setSock k s).setSock k s' = st.setSock k s' := by
  simp [St.setSock]

theorem sameSet_iff (a b : List Str) : sameSet a b = true ↔ ∀ m, m ∈ a ↔ m ∈ b := by
  simp only [sameSet, Bool.and_eq_true, List.all_eq_true, decide_eq_true_eq]
  constructor
  · rintro ⟨h1, h2⟩ m; exact ⟨h1 m, h2 m⟩
  · intro h; exact ⟨fun m hm => (h m).mp hm, fun m hm => (h m).mpr hm⟩

/-- **C27, detection (partial).** A SASL bind the server accepts after any number of challenges, with the mechanism list known from before the bind and the
re-check answered with `new`: the call succeeds exactly when the two lists hold the same mechanisms (or the check is not fatal); otherwise it raises
`LDAPError`. In both cases the new list is remembered.
Missing from the full property: that the connection is not left bound, which is false – the last conjunct says it is always bound. -/
theorem c27_downgrade_partial (choose : List Str → Option Str) (st : St) (i : Nat) (c : Inst) (s : Conn.Sock) (orig new : List Str)
    (hc : st.insts[i]? = some c) (hs : st.socks[c.sock]? = some s) (hu : s.unbound = false) (hb : s.bound = false)
    (hmechs : c.mechs = some orig) (mech : Option Str) (n : Nat) (hm : s.nextId + n + 1 ≤ maxInt) (cand : List Str) (m : Str) (f : Option (List Str))
    (hcand : candidates orig mech c.defaultMech = .ok cand) (hch : choose cand = some m)
    (r : Res × St × Option Str)
    (hr : r = st.saslBind choose i mech f (some new) (List.replicate n (.inProgress true) ++ [.success])) :
    (r.1 = .ok ↔ (c.fatal = false ∨ ∀ x, x ∈ orig ↔ x ∈ new)) ∧
    (r.1 ≠ .ok → r.1 = .err .ldapError) ∧
    (r.2.1.insts[i]? = some { c with mechs := some new }) ∧
    (∃ s', r.2.1.socks[c.sock]? = some s' ∧ s'.bound = true) := by
  have hloop : ∀ (n : Nat) (s : Conn.Sock), s.unbound = false → s.nextId + n ≤ maxInt →
      (st.setSock c.sock s).saslLoop i c.sock (some new) (List.replicate n (.inProgress true) ++ [.success]) =
        (st.setSock c.sock { sentMore s (n + 1) with bound := true }).recheck i (some new) := by
    intro n
    induction n with
    | zero =>
      intro s1 hu1 hm1
      have hg := setSock_get st c.sock s s1 hs
      have h1 := send_more (st.setSock c.sock s1) c.sock s1 hg hu1 (by omega)
      simp only [List.replicate, List.nil_append, St.saslLoop, h1, setSock_setSock, setSock_get st c.sock s _ hs]
    | succ n ih =>
      intro s1 hu1 hm1
      have hg := setSock_get st c.sock s s1 hs
      have h1 := send_more (st.setSock c.sock s1) c.sock s1 hg hu1 (by omega)
      have h2 := ih (sentMore s1 1) hu1 (by simp [sentMore]; omega)
      simp only [List.replicate, List.cons_append, St.saslLoop, h1, setSock_setSock, h2]
      congr 2
      simp only [sentMore]
      congr 1
      · omega
      · rw [List.append_assoc]; rfl
  have hstart : st.saslLoop i c.sock (some new) (List.replicate n (.inProgress true) ++ [.success]) =
      (st.setSock c.sock { sentMore s (n + 1) with bound := true }).recheck i (some new) := by
    rw [← hloop n s hu (by omega)]
    congr 1
    simp only [St.setSock]
    rw [show st.socks.set c.sock s = st.socks from ?_]
    apply List.ext_getElem?
    intro j
    rw [List.getElem?_set]
    split
    · subst_vars; rw [if_pos (get_lt hs), hs]
    · rfl
  have hall : st.saslBind choose i mech f (some new) (List.replicate n (.inProgress true) ++ [.success]) =
      (((st.setSock c.sock { sentMore s (n + 1) with bound := true }).recheck i (some new)).1,
       ((st.setSock c.sock { sentMore s (n + 1) with bound := true }).recheck i (some new)).2, some m) := by
    unfold St.saslBind
    simp only [hc, hs, hu, hb, Bool.false_eq_true, if_false, hmechs, hcand, hch, hstart]
  have hil := get_lt hc
  have hlt := get_lt hs
  have hrecheck : (st.setSock c.sock { sentMore s (n + 1) with bound := true }).recheck i (some new) =
      ((if sameSet orig new then .ok else if c.fatal then .err .ldapError else .ok),
       { (st.setSock c.sock { sentMore (sentMore s (n + 1)) 1 with bound := true }) with insts := st.insts.set i { c with mechs := some new } }) := by
    unfold St.recheck
    have h0 : (st.setSock c.sock { sentMore s (n + 1) with bound := true }).insts[i]? = some c := hc
    have h1 := send_more { (st.setSock c.sock { sentMore s (n + 1) with bound := true }) with insts := st.insts.set i { c with mechs := none } }
      c.sock { sentMore s (n + 1) with bound := true } (by simp [St.setSock, hlt]) hu (by simp [sentMore]; omega)
    simp only [h0, hmechs]
    have hins : (st.setSock c.sock { sentMore s (n + 1) with bound := true }).insts = st.insts := rfl
    simp only [hins, h1]
    simp only [St.setSock, List.set_set, sentMore]
    split
    · rfl
    · split <;> rfl
  subst hr
  rw [hall, hrecheck]
  refine ⟨?_, ?_, ?_, ?_⟩
  · rw [← sameSet_iff]
    cases sameSet orig new <;> cases c.fatal <;> simp
  · cases sameSet orig new <;> cases c.fatal <;> simp
  · simp [hil]
  · exact ⟨_, by simp [St.setSock, hlt]; rfl, rfl⟩

/-- **C27, negotiation.** If the SASL library only picks a mechanism it was offered and implements, then the mechanism used is one the server advertised
and the client implements; and if one was asked for – by the caller or the default – it is that one. -/
theorem c27_mechanism (choose : List Str → Option Str) (implemented : Str → Prop) (hch : ∀ l m, choose l = some m → m ∈ l ∧ implemented m)
    (st : St) (i : Nat) (c : Inst) (hc : st.insts[i]? = some c) (mech : Option Str) (f a : Option (List Str)) (anss : List Ans) (m : Str)
    (h : (st.saslBind choose i mech f a anss).2.2 = some m) :
    implemented m ∧ (∃ advertised, (c.mechs = some advertised ∨ (c.mechs = none ∧ f = some advertised)) ∧ m ∈ advertised) ∧
    (∀ x, mech = some x → m = x) ∧ (∀ x, mech = none → c.defaultMech = some x → m = x) := by
  have main : ∀ (got : Except Err (List Str) × St), (match got with
              | (.error e, st) => ((Res.err e, st, none) : Res × St × Option Str)
              | (.ok ms, st) =>
                match candidates ms mech c.defaultMech with
                | .error e => (.err e, st, none)
                | .ok cand =>
                  match choose cand with
                  | none => (.err .saslError, st, none)
                  | some m => ((st.saslLoop i c.sock a anss).1, (st.saslLoop i c.sock a anss).2, some m)).2.2 = some m →
      ∃ ms, got.1 = .ok ms ∧ implemented m ∧ m ∈ ms ∧ (∀ x, mech = some x → m = x) ∧ (∀ x, mech = none → c.defaultMech = some x → m = x) := by
    rintro ⟨g, st1⟩ hg
    cases g with
    | error e => simp at hg
    | ok ms =>
      simp only [] at hg
      split at hg
      · simp at hg
      · rename_i cand hcand
        split at hg
        · simp at hg
        · rename_i m' hm'
          simp only [Option.some.injEq] at hg
          subst hg
          obtain ⟨h1, h2⟩ := hch cand m' hm'
          refine ⟨ms, rfl, h2, ?_⟩
          unfold candidates at hcand
          split at hcand
          · rename_i hnone
            cases hcand
            refine ⟨h1, ?_, ?_⟩
            · intro x hx; subst hx; simp at hnone
            · intro x hx hd; subst hx; simp [hd] at hnone
          · rename_i y hy
            split at hcand
            · rename_i hin
              cases hcand
              simp only [List.mem_singleton] at h1
              subst h1
              refine ⟨hin, ?_, ?_⟩
              · intro x hx; subst hx; simp at hy; exact hy.symm
              · intro x hx hd; subst hx; simp [hd] at hy; exact hy.symm
            · simp at hcand
  unfold St.saslBind at h
  simp only [hc] at h
  split at h
  · simp at h
  · split at h
    · simp at h
    · split at h
      · simp at h
      · obtain ⟨ms, h1, h2, h3, h4⟩ := main _ h
        refine ⟨h2, ⟨ms, ?_, h3⟩, h4⟩
        split at h1
        · rename_i heq; cases h1; exact .inl heq
        · rename_i heq
          right
          refine ⟨heq, ?_⟩
          split at h1
          · simp at h1
          · split at h1
            · simp at h1
            · cases h1; rfl

/-- A downgrade, step by step: the list was A, B before the bind and is A afterwards; the bind raises `LDAPError` and … -/
example : (({} : St).run id List.head? [.connect (str "ldap://h") true true none ⟨true, some [str "A", str "B"]⟩,
    .saslBind 0 none none (some [str "A"]) [.inProgress true, .success], .operation 0 true]).1 = [.ok, .err .ldapError, .ok] := by decide

/-- **C27 fails (finding):** … the connection *is* left bound after a detected downgrade; operations go through. -/
theorem c27_left_bound : (({} : St).run id List.head? [.connect (str "ldap://h") true true none ⟨true, some [str "A", str "B"]⟩,
    .saslBind 0 none none (some [str "A"]) [.inProgress true, .success]]).2.socks.map Sock.bound = [true] := by decide

end Laurelin.Props
