import Verif.Props.Directory
import Verif.Model.ApiLoop
/-!
Lemmas for C99: whole messages of other requests that wait to be received are put into queues by the next request, and change nothing else.
-/
set_option linter.unusedSectionVars false
namespace Laurelin.Props
open Laurelin Codec Asn1 Rfc4511 Spec
namespace LoopP
section
open Net
variable {B M : Type}

/-- messages of other requests put into their queues -/
def enqAll (C : Codec B M) (s : Sock B M) (ds : List M) : Sock B M := ds.foldl (fun s d => s.enqueue (C.mid d) d) s

theorem enqAll_append (C : Codec B M) (s : Sock B M) (a b : List M) : enqAll C s (a ++ b) = enqAll C (enqAll C s a) b := List.foldl_append

theorem enqueue_other (s : Sock B M) (i j : Nat) (m : M) (h : j ≠ i) : (s.enqueue i m).queues j = s.queues j := by
  unfold Sock.enqueue
  split <;> simp [h]

theorem enqAll_facts (C : Codec B M) (ds : List M) : ∀ s : Sock B M, (enqAll C s ds).abandoned = s.abandoned ∧ (enqAll C s ds).chunks = s.chunks ∧
    (∀ j, (∀ d ∈ ds, C.mid d ≠ j) → (enqAll C s ds).queues j = s.queues j) := by
  induction ds with
  | nil => exact fun s => ⟨rfl, rfl, fun _ _ => rfl⟩
  | cons d ds ih =>
    intro s
    obtain ⟨h1, h2, h3⟩ := ih (s.enqueue (C.mid d) d)
    refine ⟨h1.trans (enqueue_abandoned _ _ _), h2.trans (enqueue_chunks _ _ _), fun j hj => ?_⟩
    have := h3 j (fun x hx => hj x (List.mem_cons_of_mem _ hx))
    exact this.trans (enqueue_other _ _ _ _ (fun h => hj d List.mem_cons_self h.symm))

/-- the queue of a request whose messages are put into it -/
theorem enqAll_own (C : Codec B M) (n : Nat) (ds : List M) : ∀ (s : Sock B M) (g : Nat) (q : List M), (∀ d ∈ ds, C.mid d = n) → s.queues n = some (g, q) → (enqAll C s ds).queues n = some (g, q ++ ds) := by
  induction ds with
  | nil => intro s g q _ h; rw [List.append_nil]; exact h
  | cons d ds ih =>
    intro s g q hd h
    have hn := hd d List.mem_cons_self
    have := ih (s.enqueue (C.mid d) d) g (q ++ [d]) (fun x hx => hd x (List.mem_cons_of_mem _ hx)) (by
      unfold Sock.enqueue
      rw [hn, h]
      simp)
    rw [List.append_assoc] at this
    exact this

theorem enqAll_new (C : Codec B M) (n : Nat) (ds : List M) (s : Sock B M) (hd : ∀ d ∈ ds, C.mid d = n) (hq : s.queues n = none) :
    (ds = [] ∧ (enqAll C s ds).queues n = none) ∨ (ds ≠ [] ∧ ∃ g, (enqAll C s ds).queues n = some (g, ds)) := by
  cases ds with
  | nil => exact .inl ⟨rfl, hq⟩
  | cons d ds =>
    refine .inr ⟨nofun, s.fresh, ?_⟩
    have hn := hd d List.mem_cons_self
    exact enqAll_own C n ds (s.enqueue (C.mid d) d) s.fresh [d] (fun x hx => hd x (List.mem_cons_of_mem _ hx)) (by
      unfold Sock.enqueue
      rw [hn, hq]
      simp)

theorem decodeLoop_foreign (C : Codec B M) (want : Nat) (ds : List M) : ∀ (n : Nat) (s : Sock B M), (ds.flatMap C.enc).length ≤ n → (∀ d ∈ ds, C.mid d ≠ want ∧ C.mid d ≠ 0) →
    decodeLoop C want n (ds.flatMap C.enc) s = .drained (enqAll C s ds) := by
  induction ds with
  | nil => intro n s _ _; cases n <;> rfl
  | cons d ds ih =>
    intro n s hn hd
    obtain ⟨h1, h2⟩ := hd d List.mem_cons_self
    have hne := C.enc_ne d
    rw [List.flatMap_cons] at hn ⊢
    have hdec := C.dec_enc d (ds.flatMap C.enc)
    cases he : C.enc d with
    | nil => exact absurd he hne
    | cons b bs =>
      rw [he] at hdec hn
      cases n with
      | zero => simp at hn
      | succ n =>
        rw [List.cons_append] at hdec ⊢
        simp only [decodeLoop, hdec, if_neg h1, if_neg h2]
        exact ih n _ (by simp only [List.length_append, List.length_cons] at hn; omega) (fun x hx => hd x (List.mem_cons_of_mem _ hx))

theorem outer_skip (C : Codec B M) (want : Nat) (cs : List (List B)) (gs : List (List M)) : ∀ s : Sock B M, (∀ g ∈ gs, ∀ d ∈ g, C.mid d ≠ want ∧ C.mid d ≠ 0) → s.queues want = none → s.abandoned = [] →
    outer C want true [] s (gs.map (fun g => g.flatMap C.enc) ++ cs) = outer C want true [] (enqAll C s gs.flatten) cs := by
  induction gs with
  | nil => intro s _ _ _; rfl
  | cons g gs ih =>
    intro s hd hq hab
    have hg := hd g List.mem_cons_self
    have hpop : s.pop want = none := by simp [Sock.pop, hq]
    obtain ⟨f1, f2, f3⟩ := enqAll_facts C g s
    rw [List.map_cons, List.cons_append, outer]
    simp only [if_true, hpop, hab, List.not_mem_nil, if_false, List.nil_append, decodeLoop_foreign C want g _ s (Nat.le_refl _) hg]
    rw [ih (enqAll C s g) (fun x hx => hd x (List.mem_cons_of_mem _ hx)) ((f3 want (fun d h => (hg d h).1)).trans hq) (f1.trans hab), List.flatten_cons, enqAll_append]

def setC (cs : List (List B)) (s : Sock B M) : Sock B M := { s with chunks := cs }

theorem enqueue_setC (cs : List (List B)) (s : Sock B M) (i : Nat) (m : M) : (setC cs s).enqueue i m = setC cs (s.enqueue i m) := by
  simp only [Sock.enqueue, setC]
  split <;> rfl

theorem enqAll_setC (C : Codec B M) (cs : List (List B)) (ds : List M) : ∀ s : Sock B M, enqAll C (setC cs s) ds = setC cs (enqAll C s ds) := by
  induction ds with
  | nil => exact fun s => rfl
  | cons d ds ih =>
    intro s
    show enqAll C ((setC cs s).enqueue (C.mid d) d) ds = setC cs (enqAll C (s.enqueue (C.mid d) d) ds)
    rw [enqueue_setC, ih]

theorem pop_setC (cs : List (List B)) (s : Sock B M) (i : Nat) : (setC cs s).pop i = (s.pop i).map (fun x => (x.1, x.2.1, setC cs x.2.2)) := by
  simp only [Sock.pop, setC]
  split <;> rfl

def Dec.setC (cs : List (List B)) : Dec B M → Dec B M
  | .yields m raw s => .yields m raw (LoopP.setC cs s)
  | .unsolicited m s => .unsolicited m (LoopP.setC cs s)
  | .drained s => .drained (LoopP.setC cs s)
  | .underrun raw s => .underrun raw (LoopP.setC cs s)

theorem decodeLoop_setC (C : Codec B M) (want : Nat) (cs : List (List B)) (n : Nat) : ∀ (raw : List B) (s : Sock B M), decodeLoop C want n raw (setC cs s) = Dec.setC cs (decodeLoop C want n raw s) := by
  induction n with
  | zero => intro raw s; cases raw <;> rfl
  | succ n ih =>
    intro raw s
    cases raw with
    | nil => rfl
    | cons b raw =>
      simp only [decodeLoop]
      cases C.dec (b :: raw) with
      | none => rfl
      | some x =>
        simp only []
        split
        · rfl
        · split
          · rfl
          · rw [enqueue_setC, ih]

/-- reading does not look at the pieces but through its argument -/
theorem outer_setC (C : Codec B M) (want : Nat) (cs0 : List (List B)) (cs : List (List B)) : ∀ (flush : Bool) (raw : List B) (s : Sock B M), outer C want flush raw (setC cs0 s) cs = outer C want flush raw s cs := by
  induction cs with
  | nil =>
    intro flush raw s
    rw [outer, outer, pop_setC]
    cases flush <;> simp only [if_true, Bool.false_eq_true, if_false]
    · rfl
    · cases s.pop want <;> rfl
  | cons c cs ih =>
    intro flush raw s
    rw [outer, outer, pop_setC, decodeLoop_setC]
    generalize decodeLoop C want (raw ++ c).length (raw ++ c) s = x
    have ha : (setC cs0 s).abandoned = s.abandoned := rfl
    rw [ha]
    cases flush <;> simp only [if_true, Bool.false_eq_true, if_false]
    · by_cases hw : want ∈ s.abandoned
      · simp only [if_pos hw]; rfl
      · simp only [if_neg hw]
        cases x with
        | yields m r s' => rfl
        | unsolicited m s' => rfl
        | drained s' => exact ih _ _ _
        | underrun r s' => exact ih _ _ _
    · cases s.pop want with
      | some y => rfl
      | none =>
        simp only [Option.map_none]
        by_cases hw : want ∈ s.abandoned
        · simp only [if_pos hw]; rfl
        · simp only [if_neg hw]
          cases x with
          | yields m r s' => rfl
          | unsolicited m s' => rfl
          | drained s' => exact ih _ _ _
          | underrun r s' => exact ih _ _ _

/-- what is left of the pieces is the end of them -/
theorem outer_suffix (C : Codec B M) (want : Nat) (cs : List (List B)) : ∀ (flush : Bool) (raw : List B) (s : Sock B M), (outer C want flush raw s cs).2.2.chunks <:+ cs := by
  induction cs with
  | nil =>
    intro flush raw s
    rw [outer]
    split
    · exact List.suffix_refl _
    · split <;> exact List.suffix_refl _
  | cons c cs ih =>
    intro flush raw s
    rw [outer]
    split
    · exact List.suffix_refl _
    · split
      · exact List.suffix_refl _
      · split
        · exact List.suffix_cons _ _
        · exact List.suffix_cons _ _
        · exact (ih _ _ _).trans (List.suffix_cons _ _)
        · exact (ih _ _ _).trans (List.suffix_cons _ _)

/-- a new reader on a socket where whole messages of other requests come first -/
theorem next_skip (C : Codec B M) (want : Nat) (s : Sock B M) (gs : List (List M)) (cs : List (List B)) (hd : ∀ g ∈ gs, ∀ d ∈ g, C.mid d ≠ want ∧ C.mid d ≠ 0) (hq : s.queues want = none) (hab : s.abandoned = []) :
    next C want (.top []) (setC (gs.map (fun g => g.flatMap C.enc) ++ cs) s) = next C want (.top []) (setC cs (enqAll C s gs.flatten)) := by
  show outer C want true [] (setC _ s) (gs.map (fun g => g.flatMap C.enc) ++ cs) = outer C want true [] (setC cs _) cs
  rw [outer_setC, outer_setC, outer_skip C want cs gs s hd hq hab]

def Dec.sock : Dec B M → Sock B M
  | .yields _ _ s => s
  | .unsolicited _ s => s
  | .drained s => s
  | .underrun _ s => s

theorem decodeLoop_chunks (C : Codec B M) (want : Nat) (n : Nat) : ∀ (raw : List B) (s : Sock B M), (Dec.sock (decodeLoop C want n raw s)).chunks = s.chunks := by
  induction n with
  | zero => intro raw s; cases raw <;> rfl
  | succ n ih =>
    intro raw s
    cases raw with
    | nil => rfl
    | cons b raw =>
      simp only [decodeLoop]
      cases C.dec (b :: raw) with
      | none => rfl
      | some x =>
        simp only []
        split
        · rfl
        · split
          · rfl
          · rw [ih, enqueue_chunks]

theorem decoding_suffix (C : Codec B M) (want : Nat) (raw : List B) (s : Sock B M) : (next C want (.decoding raw) s).2.2.chunks <:+ s.chunks := by
  have h := decodeLoop_chunks C want raw.length raw s
  simp only [next]
  revert h
  cases decodeLoop C want raw.length raw s with
  | yields m r s' => intro h; exact (show s'.chunks = s.chunks from h) ▸ List.suffix_refl _
  | unsolicited m s' => intro h; exact (show s'.chunks = s.chunks from h) ▸ List.suffix_refl _
  | drained s' => intro h; exact (show s'.chunks = s.chunks from h) ▸ outer_suffix _ _ _ _ _ _
  | underrun r s' => intro h; exact (show s'.chunks = s.chunks from h) ▸ outer_suffix _ _ _ _ _ _

end
end LoopP
end Laurelin.Props
