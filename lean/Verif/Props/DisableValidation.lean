import Verif.Model.DisableValidation
/-! Property C15: disabling validation is scoped. -/
namespace Laurelin.Props
open Laurelin

/-- the validators that remain: all named classes removed; no names = none remain -/
def remaining (vals : List Validator') (names : List Str) : List Validator' :=
  if names = [] then [] else vals.filter (fun v => decide (v.cls ∉ names))

/-- specification: the meaning of the blocks, by structure -/
def meaning (vals : List Validator') : VProg → VOut
  | .operation => ⟨[vals], false⟩
  | .raise => ⟨[], true⟩
  | .seq a b =>
    let o1 := meaning vals a
    if o1.raised then o1 else let o2 := meaning vals b; ⟨o1.seen ++ o2.seen, o2.raised⟩
  | .disabled names body => meaning (remaining vals names) body

theorem enterLoop_ok (cur orig : Nat) (names : List Str) (hne : cur ≠ orig) (n : Nat) (store : List (List Validator'))
    (i : Nat) (new : List Validator') (ho : orig < store.length) (hn : (store.getD cur []).length - i < n) :
    VState.enterLoop cur orig names n store i new =
      some (store.set orig (store.getD orig [] ++ (store.getD cur []).drop i),
        new ++ remaining ((store.getD cur []).drop i) names) := by
  induction n generalizing store i new with
  | zero => omega
  | succ n ih =>
    simp only [VState.enterLoop]
    cases h : (store.getD cur [])[i]? with
    | none =>
      have hd : (store.getD cur []).drop i = [] := List.drop_eq_nil_of_le (by simpa using h)
      simp only [hd, List.append_nil]
      congr 2
      · rw [List.getD_eq_getElem?_getD, List.getElem?_eq_getElem ho]
        simp
      · simp [remaining]
    | some v =>
      have hi : i < (store.getD cur []).length := by
        rcases Nat.lt_or_ge i (store.getD cur []).length with hh | hh
        · exact hh
        · rw [List.getElem?_eq_none hh] at h; simp at h
      have hcur : (store.set orig (store.getD orig [] ++ [v])).getD cur [] = store.getD cur [] := by
        simp only [List.getD_eq_getElem?_getD]
        rw [List.getElem?_set_ne (fun e => hne e.symm)]
      have horig : (store.set orig (store.getD orig [] ++ [v])).getD orig [] = store.getD orig [] ++ [v] := by
        rw [List.getD_eq_getElem?_getD, List.getElem?_set_self ho]; rfl
      simp only []
      rw [ih]
      · rw [hcur, horig, List.set_set]
        have hdrop : (store.getD cur []).drop i = v :: (store.getD cur []).drop (i + 1) := by
          rw [List.drop_eq_getElem_cons hi]
          congr 1
          rw [List.getElem?_eq_getElem hi] at h
          simpa using h
        rw [hdrop]
        congr 2
        · simp
        · simp only [remaining]
          by_cases h1 : names = []
          · simp [h1]
          · simp only [h1, if_false, List.filter_cons]
            by_cases h2 : v.cls ∈ names <;> simp [h2]
      · simpa using ho
      · rw [hcur]; omega

/-- **C15.** For any nesting of `disable_validation` blocks, sequences, operations and exceptions: the program never hangs, every
operation sees exactly the previously active validators minus the classes named by the enclosing blocks (none when a block
names none), in order, and when the program ends – normally or by an exception – the active validators are what they were
before. -/
theorem c15_scoped (p : VProg) (s : VState) (hs : s.cur < s.store.length) :
    ∃ s', p.exec s = some (s', meaning s.active p) ∧ s'.active = s.active ∧ s'.cur < s'.store.length ∧
      s.store.length ≤ s'.store.length ∧
      ∀ r, r < s.store.length → s'.store.getD r [] = s.store.getD r [] := by
  induction p generalizing s with
  | operation => exact ⟨s, rfl, rfl, hs, Nat.le_refl _, fun _ _ => rfl⟩
  | raise => exact ⟨s, rfl, rfl, hs, Nat.le_refl _, fun _ _ => rfl⟩
  | seq a b iha ihb =>
    obtain ⟨s1, h1, h2, h3, h5, h6⟩ := iha s hs
    simp only [VProg.exec, h1, meaning]
    by_cases hr : (meaning s.active a).raised = true
    · rw [if_pos hr, if_pos hr]
      exact ⟨s1, rfl, h2, h3, h5, h6⟩
    · rw [if_neg hr, if_neg hr]
      obtain ⟨s2, g1, g2, g3, g5, g6⟩ := ihb s1 h3
      rw [g1, h2]
      exact ⟨s2, rfl, g2.trans h2, g3, Nat.le_trans h5 g5,
        fun r hr => (g6 r (Nat.lt_of_lt_of_le hr h5)).trans (h6 r hr)⟩
  | disabled names body ih =>
    simp only [VProg.exec, VState.newContext, VState.enter]
    have hcur0 : (s.store ++ [[]]).getD s.cur [] = s.active := by
      simp only [VState.active, List.getD_eq_getElem?_getD]
      rw [List.getElem?_append_left hs]
    have hloop := enterLoop_ok s.cur s.store.length names (Nat.ne_of_lt hs) (s.active.length + 1) (s.store ++ [[]]) 0 []
      (by simp) (by rw [hcur0]; omega)
    have hact : ({ s with store := s.store ++ [[]] } : VState).active = s.active := hcur0
    rw [hact, hloop, hcur0]
    have horig0 : (s.store ++ [[]]).getD s.store.length [] = ([] : List Validator') := by
      simp [List.getD_eq_getElem?_getD]
    rw [horig0]
    simp only [List.drop_zero, List.nil_append]
    obtain ⟨s3, g1, g2, g3, g5, g6⟩ := ih
      (⟨(s.store ++ [[]]).set s.store.length s.active ++ [remaining s.active names], ((s.store ++ [[]]).set s.store.length s.active).length⟩)
      (by simp)
    have hnew : (⟨(s.store ++ [[]]).set s.store.length s.active ++ [remaining s.active names],
        ((s.store ++ [[]]).set s.store.length s.active).length⟩ : VState).active = remaining s.active names := by
      simp [VState.active, List.getD_eq_getElem?_getD]
    rw [hnew] at g1
    rw [g1]
    have hlen : ((s.store ++ [[]]).set s.store.length s.active ++ [remaining s.active names]).length = s.store.length + 2 := by simp
    have hold : ∀ r, r < s.store.length →
        ((s.store ++ [[]]).set s.store.length s.active ++ [remaining s.active names]).getD r [] = s.store.getD r [] := by
      intro r hr
      simp only [List.getD_eq_getElem?_getD]
      rw [List.getElem?_append_left (by simp; omega), List.getElem?_set_ne (by omega), List.getElem?_append_left hr]
    have horig1 : ((s.store ++ [[]]).set s.store.length s.active ++ [remaining s.active names]).getD s.store.length [] = s.active := by
      simp only [List.getD_eq_getElem?_getD]
      rw [List.getElem?_append_left (by simp), List.getElem?_set_self (by simp)]
      rfl
    refine ⟨_, rfl, ?_, ?_, ?_, ?_⟩
    · simp only [VState.exit, VState.active]
      rw [g6 s.store.length (by simp), horig1]
      rfl
    · rw [hlen] at g5
      show s.store.length < s3.store.length
      omega
    · rw [hlen] at g5
      show s.store.length ≤ s3.store.length
      omega
    · intro r hr
      show s3.store.getD r [] = _
      rw [g6 r (by rw [hlen]; omega), hold r hr]

/-- a non-trivial state and program meeting the hypothesis: nested blocks, one of which raises -/
def v0 : VState := ⟨[[⟨str "SchemaValidator", 1⟩, ⟨str "Mine", 2⟩]], 0⟩

example : v0.cur < v0.store.length ∧
    ((VProg.seq (.disabled [str "Mine"] (.seq .operation (.disabled [] .operation))) .operation).exec v0).map (·.2) =
      some ⟨[[⟨str "SchemaValidator", 1⟩], [], [⟨str "SchemaValidator", 1⟩, ⟨str "Mine", 2⟩]], false⟩ := by decide

example : ((VProg.disabled [str "Mine"] (.seq .operation .raise)).exec v0).map (fun r => (r.1.active, r.2.raised)) =
      some (v0.active, true) := by decide

/-- **C15, limit of the guarantee.** The guarantee is about contexts created by a fresh `disable_validation` call. Re-entering a
context object after it was left, with at least one validator active, never ends: the loop appends to the list it iterates. -/
theorem c15_reentry_hangs (s : VState) (c : VContext) (hs : c.orig < s.store.length) (hc : s.cur = c.orig)
    (hne : s.active ≠ []) (fuel : Nat) : VState.enterLoop s.cur c.orig c.disabled fuel s.store 0 [] = none := by
  have key : ∀ (fuel : Nat) (store : List (List Validator')) (i : Nat) (new : List Validator'), c.orig < store.length →
      i < (store.getD c.orig []).length → VState.enterLoop c.orig c.orig c.disabled fuel store i new = none := by
    intro fuel
    induction fuel with
    | zero => intros; rfl
    | succ n ih =>
      intro store i new h1 h2
      simp only [VState.enterLoop]
      rw [List.getElem?_eq_getElem h2]
      apply ih
      · simpa using h1
      · rw [List.getD_eq_getElem?_getD, List.getElem?_set_self h1]
        simp only [Option.getD_some, List.length_append, List.length_singleton]; omega
  rw [hc]
  apply key _ _ _ _ hs
  rw [VState.active, hc] at hne
  exact List.length_pos_iff.mpr hne

/-- such a state is reached by leaving any context that had a validator to keep -/
example : ∃ s1 c s2, v0.newContext [str "Mine"] = (s1, c) ∧ s1.enter c = some s2 ∧
    (s2.exit c).cur = c.orig ∧ c.orig < (s2.exit c).store.length ∧ (s2.exit c).active ≠ [] :=
  ⟨_, _, _, rfl, rfl, by decide, by decide, by decide⟩

end Laurelin.Props
