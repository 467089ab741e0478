import Verif.Props.Ldif
import Verif.Lemmas.PDict
import Verif.Model.LdapModify
import Verif.Props.Syntax
/-!
C44: `process_ldif` makes the calls the change records describe.
-/
namespace Laurelin.Props
open Laurelin Laurelin.Ldif Laurelin.Spec Laurelin.Spec.Ldif

namespace LdifR

theorem strip_space (c : Char) (s : Str) (h : inClass pySpace c = true) : strip (c :: s) = strip s := by
  simp [strip, pyStrip, h]

theorem strip_id (s : Str) (h1 : ∀ c, s.head? = some c → ¬ isSpace c) (h2 : ∀ c, s.getLast? = some c → ¬ isSpace c) :
    strip s = s := by
  have d : ∀ t : Str, (∀ c, t.head? = some c → ¬ isSpace c) → t.dropWhile (inClass pySpace) = t := by
    intro t ht
    cases t with
    | nil => rfl
    | cons c t =>
      have := ht c rfl
      rw [isSpace, Bool.not_eq_true] at this
      rw [List.dropWhile_cons, this]; rfl
  rw [strip, pyStrip, d s h1, d _ (by intro c hc; rw [List.head?_reverse] at hc; exact h2 c hc), List.reverse_reverse]

theorem break_space (c : Char) (h : isBreak c = true) : isSpace c := by
  simp only [isBreak, Bool.or_eq_true, beq_iff_eq] at h
  simp only [isSpace]
  rcases h with ((((((((h | h) | h) | h) | h) | h) | h) | h) | h) | h <;> rw [h] <;> decide

theorem ascii_not_space (c : Char) (h : 33 ≤ c.toNat ∧ c.toNat < 128) : ¬ isSpace c := by
  have key : ∀ n : Fin 128, 33 ≤ n.1 → inClass pySpace (Char.ofNat n.1) = false := by decide +kernel
  have := key ⟨c.toNat, h.2⟩ h.1
  simp only [Char.ofNat_toNat] at this
  simp [isSpace, this]

/-! lines -/

theorem go_clean (keep : Bool) (x cur rest : Str) (h : ∀ c ∈ x, isBreak c = false) :
    splitLinesGo keep cur (x ++ rest) = splitLinesGo keep (cur ++ x) rest := by
  induction x generalizing cur with
  | nil => simp
  | cons a x ih =>
    have ha := h a (by simp)
    have hr : a ≠ '\r' := by rintro rfl; revert ha; decide
    rw [List.cons_append, splitLinesGo.eq_def]
    simp only [hr, if_false, ha, Bool.false_eq_true]
    rw [ih _ (fun c hc => h c (by simp [hc]))]
    simp

theorem go_newline (keep : Bool) (cur rest : Str) :
    splitLinesGo keep cur ('\n' :: rest) = (if keep then cur ++ ['\n'] else cur) :: splitLinesGo keep [] rest := by
  rw [splitLinesGo.eq_def]
  have h1 : ¬ ('\n' = '\r') := by decide
  have h2 : isBreak '\n' = true := by decide
  simp only [h1, if_false, h2, if_true]

theorem go_flatten (cur s : Str) : (splitLinesGo true cur s).flatten = cur ++ s := by
  induction s using List.rec generalizing cur with
  | nil => simp [splitLinesGo]; split <;> simp_all
  | cons a t ih =>
    rw [splitLinesGo.eq_def]
    dsimp only
    split
    · cases t with
      | nil => simp
      | cons b t2 =>
        dsimp only
        split
        · have := ih []
          rename_i hb
          subst hb
          rw [go_newline] at this
          simp only [if_true, List.nil_append, List.flatten_cons, List.singleton_append, List.cons.injEq, true_and] at this
          simp [this]
        · simp [ih]
    · split
      · simp [ih]
      · simp [ih]

/-- a line of a record: not empty, in one piece, and no continuation line -/
structure LineOk (l : Str) : Prop where
  ne : l ≠ []
  clean : ∀ c ∈ l, isBreak c = false
  start : l.head? ≠ some ' '
  url : ∀ a b, l ≠ a ++ ':' :: '<' :: b

theorem splitLines_join (ls : List Str) (k : Nat) (hk : k ≤ 1) (hne : ls ≠ []) (h : ∀ l ∈ ls, LineOk l) :
    splitLines false (pyJoin ['\n'] ls ++ List.replicate k '\n') = ls := by
  unfold splitLines
  induction ls with
  | nil => exact absurd rfl hne
  | cons l ls ih =>
    have hl := h l (by simp)
    cases ls with
    | nil =>
      simp only [pyJoin]
      rw [go_clean _ _ _ _ hl.clean, List.nil_append]
      match k, hk with
      | 0, _ => simp [splitLinesGo, hl.ne]
      | 1, _ => rw [List.replicate_one, go_newline]; simp [splitLinesGo]
    | cons m ls =>
      rw [pyJoin_cons _ _ _ (by simp), List.append_assoc, List.append_assoc, go_clean _ _ _ _ hl.clean, List.nil_append,
        List.singleton_append, go_newline, ih (by simp) (fun x hx => h x (by simp [hx]))]
      simp

/-! unfolding -/

theorem unfold_fold (t s : Str) (h : FoldOf t s) (hr : '\r' ∉ s) (hn : ∀ a b, s ≠ a ++ '\n' :: ' ' :: b) : unfold t = s := by
  induction h with
  | nil => rfl
  | @char c t s hts ih =>
    have ih := ih (fun e => hr (by simp [e])) (fun a b e => hn (c :: a) b (by simp [e]))
    rw [unfold.eq_def]
    dsimp only
    split
    · rename_i hc
      cases t with
      | nil => cases hts; rw [hc]
      | cons b t2 =>
        dsimp only
        have hb : b ≠ ' ' := by
          rintro rfl
          cases hts with
          | char _ h2 => exact hn [] _ (by rw [hc]; rfl)
        rw [if_neg hb, ih]
    · split
      · rename_i hc; exact absurd (by simp [hc]) hr
      · rw [ih]
  | fold hts ih =>
    have ih := ih hr hn
    rw [unfold.eq_def]
    simp only [if_true]
    exact ih

/-! splitting into records -/

theorem rec_clean (x cur rest : Str) (h : ∀ c ∈ x, isBreak c = false) :
    splitRecords cur [] (x ++ rest) = splitRecords (cur ++ x) [] rest := by
  induction x generalizing cur with
  | nil => simp
  | cons a x ih =>
    have ha := h a (by simp)
    have hr : a ≠ '\r' := by rintro rfl; revert ha; decide
    have hn : a ≠ '\n' := by rintro rfl; revert ha; decide
    rw [List.cons_append, splitRecords.eq_def]
    simp only [hn, hr, if_false, List.length_nil]
    rw [if_neg (by omega), ih _ (fun c hc => h c (by simp [hc]))]
    simp

theorem rec_newlines (cur rest : Str) (pend : List Str) (k : Nat) :
    splitRecords cur pend (List.replicate k '\n' ++ rest) = splitRecords cur (pend ++ List.replicate k ['\n']) rest := by
  induction k generalizing pend with
  | zero => simp
  | succ k ih =>
    rw [List.replicate_succ, List.cons_append, splitRecords.eq_def]
    simp only [if_true]
    rw [ih, List.replicate_succ]
    simp

theorem rec_start (cur : Str) (pend : List Str) (x rest : Str) (hx : LineOk x) :
    splitRecords cur pend (x ++ rest) =
      if pend.length ≥ 2 then cur :: splitRecords x [] rest else splitRecords (cur ++ pend.flatten ++ x) [] rest := by
  cases x with
  | nil => exact absurd rfl hx.ne
  | cons a x =>
    have ha := hx.clean a (by simp)
    have hr : a ≠ '\r' := by rintro rfl; revert ha; decide
    have hn : a ≠ '\n' := by rintro rfl; revert ha; decide
    rw [List.cons_append, splitRecords.eq_def]
    simp only [hn, hr, if_false]
    split
    · rw [rec_clean _ _ _ (fun c hc => hx.clean c (by simp [hc]))]; rfl
    · rw [rec_clean _ _ _ (fun c hc => hx.clean c (by simp [hc]))]; simp

theorem rec_join (cur : Str) (pend : List Str) (ls : List Str) (rest : Str) (hne : ls ≠ []) (h : ∀ l ∈ ls, LineOk l) :
    splitRecords cur pend (pyJoin ['\n'] ls ++ rest) =
      if pend.length ≥ 2 then cur :: splitRecords (pyJoin ['\n'] ls) [] rest
      else splitRecords (cur ++ pend.flatten ++ pyJoin ['\n'] ls) [] rest := by
  induction ls generalizing cur pend with
  | nil => exact absurd rfl hne
  | cons l ls ih =>
    have hl := h l (by simp)
    cases ls with
    | nil => exact rec_start cur pend l rest hl
    | cons m ls =>
      have one : ∀ c r, splitRecords c [] ('\n' :: r) = splitRecords c [['\n']] r := by
        intro c r
        have := rec_newlines c r [] 1
        simpa using this
      rw [pyJoin_cons _ _ _ (by simp), List.append_assoc, List.append_assoc, List.singleton_append, rec_start _ _ _ _ hl]
      split
      · rw [one, ih _ _ (by simp) (fun x hx => h x (by simp [hx])), if_neg (by simp)]
        simp
      · rw [one, ih _ _ (by simp) (fun x hx => h x (by simp [hx])), if_neg (by simp)]
        simp

/-! the whole text -/

/-- `x` is never directly followed by `y` -/
def NoPair (x y : Char) (s : Str) : Prop := ∀ a b, s ≠ a ++ x :: y :: b

theorem noPair_append (x y : Char) (s t : Str) (hs : NoPair x y s) (ht : NoPair x y t)
    (h : s.getLast? = some x → t.head? = some y → False) : NoPair x y (s ++ t) := by
  intro a b e
  rcases List.append_eq_append_iff.1 e with ⟨u, h1, h2⟩ | ⟨u, h1, h2⟩
  · -- a = s ++ u
    exact ht u b h2
  · cases u with
    | nil => exact ht [] b (by simpa using h2.symm)
    | cons c u =>
      cases u with
      | nil =>
        simp only [List.cons_append, List.nil_append, List.cons.injEq] at h2
        obtain ⟨rfl, h2⟩ := h2
        exact h (by simp [h1]) (by rw [← h2]; rfl)
      | cons d u =>
        simp only [List.cons_append, List.cons.injEq] at h2
        obtain ⟨rfl, rfl, h2⟩ := h2
        exact hs a u h1

theorem noPair_nil (x y : Char) : NoPair x y [] := by intro a b e; simp at e

theorem noPair_single (x y c : Char) : NoPair x y [c] := by
  intro a b e
  have := congrArg List.length e
  simp at this
  omega

theorem noPair_newlines (x y : Char) (k : Nat) (hy : y ≠ '\n') : NoPair x y (List.replicate k '\n') := by
  intro a b e
  have : y ∈ List.replicate k '\n' := by rw [e]; simp
  exact hy (List.eq_of_mem_replicate this)

theorem noUrl (s : Str) (h : NoPair ':' '<' s) : hasUrl s = false := by
  induction s with
  | nil => rfl
  | cons a t ih =>
    have iht := ih (fun u v e => h (a :: u) v (by simp [e]))
    rw [hasUrl, iht, Bool.or_false]
    intro c tl e1 e2
    exact h [] (c :: tl) (by rw [e1, e2]; rfl)

theorem noPair_clean (y : Char) (s : Str) (h : ∀ c ∈ s, isBreak c = false) : NoPair '\n' y s := by
  intro a b e
  have := h '\n' (by rw [e]; simp)
  revert this; decide

theorem head_append_ne (a b : Str) (h : a ≠ []) : (a ++ b).head? = a.head? := by
  cases a with
  | nil => exact absurd rfl h
  | cons c a => rfl

theorem join_ne_nil (ls : List Str) (hne : ls ≠ []) (h : ∀ l ∈ ls, LineOk l) : pyJoin ['\n'] ls ≠ [] := by
  cases ls with
  | nil => exact absurd rfl hne
  | cons l ls =>
    have := (h l (by simp)).ne
    cases ls with
    | nil => exact this
    | cons m ls => rw [pyJoin_cons _ _ _ (by simp)]; simp

theorem join_head (l : Str) (ls : List Str) (h : l ≠ []) : (pyJoin ['\n'] (l :: ls)).head? = l.head? := by
  cases ls with
  | nil => rfl
  | cons m ls => rw [pyJoin_cons _ _ _ (by simp), List.append_assoc, head_append_ne _ _ h]

/-- a text made of lines -/
structure TextOk (s : Str) : Prop where
  chars : ∀ c ∈ s, c = '\n' ∨ isBreak c = false
  cont : NoPair '\n' ' ' s
  url : NoPair ':' '<' s

theorem join_ok (ls : List Str) (h : ∀ l ∈ ls, LineOk l) : TextOk (pyJoin ['\n'] ls) := by
  induction ls with
  | nil => exact ⟨by simp [pyJoin], noPair_nil _ _, noPair_nil _ _⟩
  | cons l ls ih =>
    have hl := h l (by simp)
    have ih := ih (fun x hx => h x (by simp [hx]))
    cases ls with
    | nil => exact ⟨fun c hc => .inr (hl.clean c hc), noPair_clean _ _ hl.clean, hl.url⟩
    | cons m ls =>
      have hm := h m (by simp)
      rw [pyJoin_cons _ _ _ (by simp), List.append_assoc]
      have hh := join_head m ls hm.ne
      refine ⟨fun c hc => ?_, ?_, ?_⟩
      · rcases List.mem_append.1 hc with hc | hc
        · exact .inr (hl.clean c hc)
        · rcases List.mem_append.1 hc with hc | hc
          · exact .inl (by simpa using hc)
          · exact ih.chars c hc
      · refine noPair_append _ _ _ _ (noPair_clean _ _ hl.clean) (noPair_append _ _ _ _ (noPair_single _ _ _) ih.cont ?_) ?_
        · intro _ e; rw [hh] at e; exact hm.start e
        · intro _ e; simp at e
      · refine noPair_append _ _ _ _ hl.url (noPair_append _ _ _ _ (noPair_single _ _ _) ih.url ?_) ?_
        · intro e; simp at e
        · intro _ e; simp at e

theorem body_ok (l : List (Record × Nat)) (hs : Separated l) (h : ∀ rk ∈ l, ∀ x ∈ rk.1.lines, LineOk x) : TextOk (body l) := by
  induction l with
  | nil => exact ⟨by simp [body], noPair_nil _ _, noPair_nil _ _⟩
  | cons rk l ih =>
    obtain ⟨r, k⟩ := rk
    have hj := join_ok r.lines (h (r, k) (by simp))
    have hs' : Separated l := by
      cases l with
      | nil => trivial
      | cons b l => exact hs.2
    have ih := ih hs' (fun x hx => h x (by simp [hx]))
    have hhead : (body l).head? ≠ some ' ' ∧ (body l).head? ≠ some '<' := by
      cases l with
      | nil => simp [body]
      | cons b l =>
        obtain ⟨r2, k2⟩ := b
        have hh : (body ((r2, k2) :: l)).head? = some 'd' := by
          rw [body, List.append_assoc, head_append_ne _ _ (join_ne_nil _ (by simp [Record.lines]) (h (r2, k2) (by simp))), Record.lines,
            join_head _ _ (by simp)]
          rfl
        rw [hh]; decide
    have hlast : (pyJoin ['\n'] r.lines).getLast? = some '\n' → False := by
      intro e
      have hne : r.lines ≠ [] := by simp [Record.lines]
      clear hj ih hhead
      have key : ∀ ls : List Str, ls ≠ [] → (∀ x ∈ ls, LineOk x) → (pyJoin ['\n'] ls).getLast? ≠ some '\n' := by
        intro ls hne hls e
        induction ls with
        | nil => exact hne rfl
        | cons y ys ihy =>
          cases ys with
          | nil =>
            have := (hls y (by simp)).clean '\n' (List.mem_of_getLast? (by simpa [pyJoin] using e))
            revert this; decide
          | cons z zs =>
            rw [pyJoin_cons _ _ _ (by simp), List.getLast?_append] at e
            cases hq : (pyJoin ['\n'] (z :: zs)).getLast? with
            | none =>
              rw [List.getLast?_eq_none_iff] at hq
              exact join_ne_nil _ (by simp) (fun x hx => hls x (by simp [hx])) hq
            | some c =>
              rw [hq] at e
              simp only [Option.some_or, Option.some.injEq] at e
              exact ihy (by simp) (fun x hx => hls x (by simp [hx])) (by rw [hq, e])
      exact key _ hne (h (r, k) (by simp)) e
    simp only [body]
    rw [List.append_assoc]
    refine ⟨fun c hc => ?_, ?_, ?_⟩
    · rcases List.mem_append.1 hc with hc | hc
      · exact hj.chars c hc
      · rcases List.mem_append.1 hc with hc | hc
        · exact .inl (List.eq_of_mem_replicate hc)
        · exact ih.chars c hc
    · refine noPair_append _ _ _ _ hj.cont (noPair_append _ _ _ _ (noPair_newlines _ _ _ (by decide)) ih.cont ?_) ?_
      · intro _ e; exact hhead.1 e
      · intro e; exact absurd e hlast
    · refine noPair_append _ _ _ _ hj.url (noPair_append _ _ _ _ (noPair_newlines _ _ _ (by decide)) ih.url ?_) ?_
      · intro _ e; exact hhead.2 e
      · intro _ e
        cases k with
        | zero => simp at e; exact hhead.2 (by simpa using e)
        | succ k => simp [List.replicate_succ] at e

theorem flatten_newlines (k : Nat) : (List.replicate k ['\n']).flatten = List.replicate k '\n' := by
  induction k with
  | zero => rfl
  | succ k ih => rw [List.replicate_succ, List.flatten_cons, ih, List.replicate_succ]; rfl

/-- carrying out what was read of each record, until something fails -/
def runOuts {σ ρ : Type} (exec : σ → Op → σ × Except Err ρ) : σ → List (Except Err Op) → (List Op × σ) × Except Err (List ρ)
  | st, [] => (([], st), .ok [])
  | st, .error e :: _ => (([], st), .error e)
  | st, .ok op :: rest =>
    match exec st op with
    | (st', .error e) => (([op], st'), .error e)
    | (st', .ok x) =>
      let out := runOuts exec st' rest
      match out.2 with
      | .error e => ((op :: out.1.1, out.1.2), .error e)
      | .ok xs => ((op :: out.1.1, out.1.2), .ok (x :: xs))

theorem runOuts_ok {σ ρ : Type} (exec : σ → Op → σ × Except Err ρ) (ops : List Op) (st : σ) :
    runOuts exec st (ops.map Except.ok) = runOps exec st ops := by
  induction ops generalizing st with
  | nil => rfl
  | cons op ops ih =>
    rw [List.map_cons, runOuts, runOps]
    split
    · rename_i h; simp only [h]
    · rename_i h; simp only [h, ih]; rfl

theorem runOuts_error {σ ρ : Type} (exec : σ → Op → σ × Except Err ρ) (ops : List Op) (e : Err) (rest : List (Except Err Op)) (st : σ) :
    runOuts exec st (ops.map Except.ok ++ .error e :: rest) =
      ((runOps exec st ops).1, match (runOps exec st ops).2 with | .error e' => .error e' | .ok _ => .error e) := by
  induction ops generalizing st with
  | nil => rfl
  | cons op ops ih =>
    rw [List.map_cons, List.cons_append, runOuts, runOps]
    split
    · rename_i h; simp only [h]
    · rename_i h
      simp only [h, ih]
      cases (runOps exec _ ops).2 <;> rfl

/-- a run of the pieces -/
theorem run_body {σ ρ : Type} (env : Env) (exec : σ → Op → σ × Except Err ρ) (l : List (Record × Nat)) (outs : List (Except Err Op))
    (hs : Separated l) (h : ∀ rk ∈ l, ∀ x ∈ rk.1.lines, LineOk x)
    (hops : l.map (fun rk => readLines env rk.1.lines) = outs) (cur : Str) (pend : List Str)
    (hp : 2 ≤ pend.length) :
    ∃ ps, splitRecords cur pend (body l) = cur :: ps ∧ ∀ st, runRecords env exec st ps = runOuts exec st outs := by
  induction l generalizing outs cur pend with
  | nil =>
    cases outs with
    | cons _ _ => simp at hops
    | nil => exact ⟨[[]], by simp [body, splitRecords, hp], fun st => by simp [runRecords, runOuts]⟩
  | cons rk l ih =>
    obtain ⟨r, k⟩ := rk
    cases outs with
    | nil => simp at hops
    | cons o outs =>
      simp only [List.map_cons, List.cons.injEq] at hops
      obtain ⟨h1, h2⟩ := hops
      have hls := h (r, k) (by simp)
      have hne : r.lines ≠ [] := by simp [Record.lines]
      have hj : pyJoin ['\n'] r.lines ≠ [] := join_ne_nil _ hne hls
      -- one record, in a piece with at most one newline at its end
      have one : ∀ (j : Nat) (ps : List Str), j ≤ 1 → (∀ st, runRecords env exec st ps = runOuts exec st outs) →
          ∀ st, runRecords env exec st ((pyJoin ['\n'] r.lines ++ List.replicate j '\n') :: ps) = runOuts exec st (o :: outs) := by
        intro j ps hj1 hps st
        rw [runRecords, if_neg (by simp [hj]), splitLines_join _ _ hj1 hne hls, h1]
        cases o with
        | error e => rfl
        | ok op =>
          simp only [runOuts]
          split
          · simp_all
          · rename_i st' x he
            simp only [he, hps]
            rfl
      simp only [body]
      rw [List.append_assoc, rec_join _ _ _ _ hne hls, if_pos hp, rec_newlines, List.nil_append]
      cases l with
      | nil =>
        cases outs with
        | cons _ _ => simp at h2
        | nil =>
          simp only [body, splitRecords, List.length_replicate]
          split
          · rename_i hk
            refine ⟨[pyJoin ['\n'] r.lines, []], rfl, fun st => ?_⟩
            have := one 0 [[]] (by omega) (fun st => by simp [runRecords, runOuts]) st
            simpa using this
          · rename_i hk
            refine ⟨_, rfl, fun st => ?_⟩
            have := one k [] (by omega) (fun st => by simp [runRecords, runOuts]) st
            rw [flatten_newlines]; exact this
      | cons b l =>
        obtain ⟨ps, e, hps⟩ := ih outs hs.2 (fun x hx => h x (by simp [hx])) h2 (pyJoin ['\n'] r.lines)
          (List.replicate k ['\n']) (by simpa using hs.1)
        refine ⟨_, rfl, fun st => ?_⟩
        rw [e]
        have := one 0 ps (by omega) hps st
        simpa using this

theorem run_top {σ ρ : Type} (env : Env) (exec : σ → Op → σ × Except Err ρ) (l : List (Record × Nat)) (outs : List (Except Err Op))
    (hs : Separated l) (h : ∀ rk ∈ l, ∀ x ∈ rk.1.lines, LineOk x)
    (hops : l.map (fun rk => readLines env rk.1.lines) = outs) (st : σ) :
    runRecords env exec st (splitRecords [] [] (body l)) = runOuts exec st outs := by
  cases l with
  | nil =>
    cases outs with
    | cons _ _ => simp at hops
    | nil => simp [body, splitRecords, runRecords, runOuts]
  | cons rk l =>
    obtain ⟨ps, e, hps⟩ := run_body env exec (rk :: l) outs hs h hops [] [['\n'], ['\n']] (by simp)
    obtain ⟨r, k⟩ := rk
    have hls := h (r, k) (by simp)
    have hne : r.lines ≠ [] := by simp [Record.lines]
    simp only [body] at e ⊢
    rw [List.append_assoc, rec_join _ _ _ _ hne hls, if_pos (by simp)] at e
    rw [List.append_assoc, rec_join _ _ _ _ hne hls, if_neg (by simp)]
    simp only [List.cons.injEq, true_and] at e
    simp only [List.flatten_nil, List.append_nil, List.nil_append]
    rw [e, hps]

/-! one record -/

theorem strip_start (c : Char) (t : Str) (h : ¬ isSpace c) : ∃ u, strip (c :: t) = c :: u := by
  rw [isSpace, Bool.not_eq_true] at h
  rw [strip, pyStrip, List.dropWhile_cons, h]
  simp only [Bool.false_eq_true, if_false]
  rw [List.reverse_cons, List.dropWhile_append]
  split
  · simp [h]
  · simp

theorem not_comment (c : Char) (t : Str) (h : ¬ isSpace c) (hc : c ≠ '#') : startsWith (strip (c :: t)) ['#'] = false := by
  obtain ⟨u, hu⟩ := strip_start c t h
  rw [hu, startsWith]
  simp [List.isPrefixOf, hc.symm]

theorem clearComments_start (c : Char) (t : Str) (rest : List Str) (h : ¬ isSpace c) (hc : c ≠ '#') :
    clearComments ((c :: t) :: rest) = (c :: t) :: rest := by
  rw [clearComments, not_comment c t h hc]; rfl

theorem starts_append (t s : Str) : startsWith (t ++ s) t = true := by
  rw [startsWith, List.isPrefixOf_iff_prefix]; exact List.prefix_append _ _

theorem popToken_ok (t s : Str) (rest : List Str) : popToken t ((t ++ s) :: rest) = some (strip s, rest) := by
  rw [popToken, starts_append, if_pos rfl, List.drop_left]

theorem b64_strip (b : Bytes) : strip (Codec.b64Enc b) = Codec.b64Enc b := by
  apply strip_id
  · intro c hc
    exact ascii_not_space c (Codec.b64_chars b c (List.mem_of_mem_head? (by simpa using hc))).1
  · intro c hc
    exact ascii_not_space c (Codec.b64_chars b c (List.mem_of_getLast? hc)).1

theorem sp : inClass pySpace ' ' = true := by decide
theorem colon_not_space : ¬ isSpace ':' := by simp only [isSpace]; decide

/-- a value specification without the space at its end (which is there when it is an empty base64 text) -/
def specR (i : Item) : Str :=
  if i.b64 = true ∧ Codec.b64Enc (Codec.utf8Enc i.value) = [] then [':'] else i.spec

theorem handle_b64 (v : Str) (x : Str) (hx : strip x = Codec.b64Enc (Codec.utf8Enc v)) :
    handleBase64 (':' :: x) = .ok (.text v) := by
  rw [handleBase64, List.drop_one, List.tail_cons, hx, Codec.b64_round_trip]
  simp only [Codec.utf8_round_trip]

theorem last_spec (i : Item) (h : i.Good) : ∀ c, (specR i).getLast? = some c → ¬ isSpace c := by
  intro c hc
  unfold specR at hc
  split at hc
  · simp at hc; rw [← hc]; exact colon_not_space
  · rename_i hb
    unfold Item.spec at hc
    split at hc
    · rename_i hb2
      have hne : Codec.b64Enc (Codec.utf8Enc i.value) ≠ [] := fun e => hb ⟨hb2, e⟩
      rw [List.getLast?_append] at hc
      cases hq : (Codec.b64Enc (Codec.utf8Enc i.value)).getLast? with
      | none => rw [List.getLast?_eq_none_iff] at hq; exact absurd hq hne
      | some d =>
        rw [hq] at hc
        simp only [Option.some_or, Option.some.injEq] at hc
        subst hc
        exact ascii_not_space d (Codec.b64_chars _ d (List.mem_of_getLast? hq)).1
    · rename_i hb2
      have hne := (h.2.2 (by simpa using hb2)).1
      rw [List.getLast?_cons] at hc
      cases hq : i.value.getLast? with
      | none => rw [List.getLast?_eq_none_iff] at hq; exact absurd hq hne
      | some d =>
        rw [hq] at hc
        simp only [Option.getD_some, Option.some.injEq] at hc
        subst hc
        exact h.2.1 d hq

/-- reading `dn:`, `newrdn:` and so on -/
theorem read_spec (i : Item) (h : i.Good) : readVal (strip i.spec) = .ok (.text i.value) := by
  unfold Item.spec
  split
  · have : ∃ x, strip (str ": " ++ Codec.b64Enc (Codec.utf8Enc i.value)) = ':' :: x ∧
        strip x = Codec.b64Enc (Codec.utf8Enc i.value) := by
      by_cases hb : Codec.b64Enc (Codec.utf8Enc i.value) = []
      · rw [hb]; exact ⟨[], by decide, by decide⟩
      · refine ⟨' ' :: Codec.b64Enc (Codec.utf8Enc i.value), ?_, by rw [strip_space _ _ sp, b64_strip]⟩
        apply strip_id
        · intro c hc; simp at hc; rw [← hc]; exact colon_not_space
        · intro c hc
          rename_i hb2
          have := last_spec i h c
          rw [specR, if_neg (fun e => hb e.2), Item.spec, if_pos hb2] at this
          exact this hc
    obtain ⟨x, hx, hx2⟩ := this
    rw [hx, readVal]
    simp only [if_true]
    exact handle_b64 i.value x hx2
  · rename_i hb
    obtain ⟨h1, h2, h3⟩ := h
    obtain ⟨h3, h4, -, -⟩ := h3 (by simpa using hb)
    rw [strip_space _ _ sp, strip_id _ h1 h2]
    cases hv : i.value with
    | nil => exact absurd hv h3
    | cons c t =>
      rw [hv] at h4
      have : c ≠ ':' := by simpa using h4
      simp only [readVal, this, if_false]

/-- reading the value of an attribute line -/
theorem read_specR (i : Item) (h : i.Good) : ∃ v, readVal (specR i) = .ok v ∧ v.strip = .text i.value := by
  obtain ⟨h1, h2, h3⟩ := h
  have hst := strip_id _ h1 h2
  unfold specR
  split
  · rename_i hb
    refine ⟨.text i.value, ?_, by simp [LVal.strip, hst]⟩
    rw [readVal]
    simp only [if_true]
    exact handle_b64 i.value [] (by rw [hb.2]; decide)
  · unfold Item.spec
    split
    · refine ⟨.text i.value, ?_, by simp [LVal.strip, hst]⟩
      simp only [List.cons_append, List.nil_append, readVal, if_true]
      exact handle_b64 i.value _ (by rw [strip_space _ _ sp, b64_strip])
    · refine ⟨.text (' ' :: i.value), ?_, ?_⟩
      · simp [readVal]
      · simp [LVal.strip, strip_space _ _ sp, hst]

theorem name_head (a : Str) (h : GoodName a) : ∃ c t, a = c :: t ∧ ¬ isSpace c ∧ c ≠ '#' := by
  cases a with
  | nil => exact absurd rfl h.1
  | cons c t => exact ⟨c, t, rfl, (h.2.2 c (by simp)).1, by simpa using h.2.1⟩

/-- stripping an attribute line -/
theorem strip_line (a : Str) (i : Item) (ha : GoodName a) (hi : i.Good) :
    strip (a ++ ':' :: i.spec) = a ++ ':' :: specR i := by
  obtain ⟨c, t, rfl, hc, -⟩ := name_head a ha
  have key : strip (c :: t ++ ':' :: specR i) = c :: t ++ ':' :: specR i := by
    apply strip_id
    · intro d hd; simp at hd; rw [← hd]; exact hc
    · intro d hd
      rw [List.getLast?_append, List.getLast?_cons] at hd
      cases hq : (specR i).getLast? with
      | none =>
        rw [hq] at hd
        simp at hd
        rw [← hd]; exact colon_not_space
      | some e =>
        rw [hq] at hd
        simp at hd
        subst hd
        exact last_spec i hi e hq
  by_cases hb : i.b64 = true ∧ Codec.b64Enc (Codec.utf8Enc i.value) = []
  · have e1 : specR i = [':'] := by rw [specR, if_pos hb]
    have e2 : i.spec = str ": " := by rw [Item.spec, if_pos hb.1, hb.2]; rfl
    rw [e1] at key
    rw [e1, e2]
    -- one space more at the end
    have snoc : ∀ s : Str, strip (s ++ [' ']) = strip s := by
      intro s
      simp only [strip, pyStrip]
      rw [List.dropWhile_append]
      split
      · rename_i he
        rw [List.isEmpty_iff] at he
        rw [he]; simp [sp]
      · rw [List.reverse_append]
        simp [sp]
    have : c :: t ++ ':' :: str ": " = (c :: t ++ ':' :: [':']) ++ [' '] := by simp
    rw [this, snoc, key]
  · have e1 : specR i = i.spec := by rw [specR, if_neg hb]
    rw [e1] at key
    rw [e1, key]

/-! values that are octets -/
theorem octets_item (b : Bytes) (s : Str) (h : Codec.utf8Dec b = some s) (hg : (Datum.octets b).Good) : (⟨s, true⟩ : Item).Good ∧ (Datum.octets b).spec = Item.spec ⟨s, true⟩ ∧ (Datum.octets b).value = .text s := by
  have he := Codec.utf8_dec_enc b s h
  refine ⟨⟨fun c hc => hg.1 s h c (.inl hc), fun c hc => hg.1 s h c (.inr hc), nofun⟩, ?_, ?_⟩
  · simp only [Datum.spec, Item.spec, if_true, he]
  · simp only [Datum.value, valueOf, h]

theorem octets_strip (b : Bytes) (h : ∀ x, b.head? = some x ∨ b.getLast? = some x → x ≠ 32 ∧ (x.toNat < 9 ∨ 13 < x.toNat)) : (LVal.bin b).strip = .bin b := by
  have hb : ∀ x : UInt8, x ≠ 32 ∧ (x.toNat < 9 ∨ 13 < x.toNat) → isByteSpace x = false := by
    intro x hx
    rw [isByteSpace, Bool.or_eq_false_iff]
    refine ⟨beq_eq_false_iff_ne.2 hx.1, ?_⟩
    cases h1 : Nat.ble 9 x.toNat with
    | false => rfl
    | true =>
      cases h2 : Nat.ble x.toNat 13 with
      | false => rfl
      | true =>
        have h1 := Nat.le_of_ble_eq_true h1
        have h2 := Nat.le_of_ble_eq_true h2
        omega
  have hd : ∀ l : Bytes, (∀ x, l.head? = some x → isByteSpace x = false) → l.dropWhile isByteSpace = l := by
    intro l hl
    cases l with
    | nil => rfl
    | cons x t => rw [List.dropWhile_cons, hl x rfl]; rfl
  rw [LVal.strip, hd b (fun x hx => hb x (h x (.inl hx))), hd b.reverse (fun x hx => hb x (h x (.inr (by rw [List.head?_reverse] at hx; exact hx)))), List.reverse_reverse]

/-- stripping and reading the line of a value -/
theorem datum_line (a : Str) (d : Datum) (ha : GoodName a) (hd : d.Good) :
    ∃ r v, strip (a ++ ':' :: d.spec) = a ++ ':' :: r ∧ readVal r = .ok v ∧ v.strip = d.value := by
  cases d with
  | text i =>
    obtain ⟨v, hv, hvs⟩ := read_specR i hd
    exact ⟨specR i, v, strip_line a i ha hd, hv, hvs⟩
  | octets b =>
    cases hu : Codec.utf8Dec b with
    | some s =>
      obtain ⟨h1, h2, h3⟩ := octets_item b s hu hd
      obtain ⟨v, hv, hvs⟩ := read_specR ⟨s, true⟩ h1
      refine ⟨specR ⟨s, true⟩, v, ?_, hv, ?_⟩
      · rw [h2]
        exact strip_line a _ ha h1
      · rw [h3]
        exact hvs
    | none =>
      have hne : Codec.b64Enc b ≠ [] := by
        intro h0
        have h1 := Codec.b64_round_trip b
        rw [h0] at h1
        have h2 : Codec.b64Dec [] = .ok [] := by decide
        rw [h2] at h1
        cases h1
        exact absurd hu (by decide)
      refine ⟨str ": " ++ Codec.b64Enc b, .bin b, ?_, ?_, ?_⟩
      · obtain ⟨c, t, rfl, hc, -⟩ := name_head a ha
        refine strip_id _ (fun d hd => ?_) (fun d hd => ?_)
        · simp at hd
          rw [← hd]
          exact hc
        · cases hq : (Codec.b64Enc b).getLast? with
          | none => rw [List.getLast?_eq_none_iff] at hq; exact absurd hq hne
          | some z =>
            have : (c :: t ++ ':' :: (Datum.octets b).spec).getLast? = some z := by
              rw [show c :: t ++ ':' :: (Datum.octets b).spec = (c :: t ++ ':' :: str ": ") ++ Codec.b64Enc b by simp [Datum.spec], List.getLast?_append, hq]
              rfl
            rw [this] at hd
            simp only [Option.some.injEq] at hd
            rw [← hd]
            exact ascii_not_space z (Codec.b64_chars _ z (List.mem_of_getLast? hq)).1
      · simp only [List.cons_append, List.nil_append, readVal, if_true]
        rw [handleBase64, List.drop_one, List.tail_cons, strip_space _ _ sp, b64_strip, Codec.b64_round_trip]
        simp only [hu]
      · rw [octets_strip b (hd.2 hu), Datum.value, valueOf, hu]

theorem name_no_semi (a : Str) (h : GoodName a) : (pySplit ';' a).length = 1 := by
  rw [split_none _ _ (fun hm => (h.2.2 _ hm).2.2 rfl)]; rfl

theorem readAttrs_ok (attrs : List (Str × Datum)) (h : ∀ ai ∈ attrs, GoodName ai.1 ∧ ai.2.Good) (acc : PDict Str (List LVal)) (hn : (acc.map Prod.fst).Nodup)
    (hne : ∀ a vs, acc.get? a = some vs → vs ≠ []) :
    ∃ d, readAttrs acc (attrs.map (fun ai => ai.1 ++ ':' :: ai.2.spec)) = .ok d ∧ (d.map Prod.fst).Nodup ∧ (∀ a vs, d.get? a = some vs → vs ≠ []) ∧
      ∀ a, (d.get? a).getD [] = (acc.get? a).getD [] ++ (attrs.filter (fun ai => ai.1 = a)).map (fun ai => ai.2.value) := by
  induction attrs generalizing acc with
  | nil => exact ⟨acc, rfl, hn, hne, by simp⟩
  | cons ai attrs ih =>
    obtain ⟨ha, hi⟩ := h ai (by simp)
    obtain ⟨r, v, hst, hv, hvs⟩ := datum_line ai.1 ai.2 ha hi
    obtain ⟨d, hd, hd0, hd1, hd2⟩ := ih (fun x hx => h x (by simp [hx])) (acc.set ai.1 (((acc.get? ai.1).getD []) ++ [ai.2.value])) (PDict.nodup_set acc _ _ hn) (by
      intro a vs hvs
      rw [PDict.get?_set] at hvs
      by_cases e : a = ai.1
      · rw [if_pos e] at hvs
        cases hvs
        simp
      · rw [if_neg e] at hvs
        exact hne a vs hvs)
    refine ⟨d, ?_, hd0, hd1, fun a => ?_⟩
    · rw [List.map_cons, readAttrs]
      have hnc : startsWith (ai.1 ++ ':' :: r) ['#'] = false := by
        obtain ⟨c, t, e, -, hc⟩ := name_head _ ha
        rw [e, startsWith]
        simp [List.isPrefixOf, hc.symm]
      have hsf : splitFirst ':' (ai.1 ++ ':' :: r) = some (ai.1, r) :=
        (splitFirst_some _ _ _ _).2 ⟨fun hm => (ha.2.2 _ hm).2.1 rfl, rfl⟩
      simp only [hst, hnc, Bool.false_eq_true, if_false, hsf, hv, name_no_semi _ ha]
      rw [if_neg (by omega), hvs]
      exact hd
    · rw [hd2 a, List.filter_cons]
      by_cases e : ai.1 = a
      · subst e; simp [PDict.get?_set]
      · simp [PDict.get?_set, e, Ne.symm e]

theorem unpack_ok (a b : Str) (ha : ':' ∉ a) (hb : ':' ∉ b) : unpack2 (a ++ ':' :: b) = .ok (a, b) := by
  rw [unpack2, split_app _ _ _ ha, split_none _ _ hb]

theorem readVals_ok (op : ModOp) (name : Str) (items : List Item) (vals : List LVal) (acc : List (Mod LVal)) (rest : List Str)
    (hn : GoodName name) (hi : ∀ i ∈ items, i.Good ∧ i.b64 = false ∧ ':' ∉ i.value) :
    readMods (some (op, name)) vals acc (items.map (fun i => name ++ ':' :: i.spec) ++ rest) =
      readMods (some (op, name)) (vals ++ items.map (fun i => .text i.value)) acc rest := by
  induction items generalizing vals with
  | nil => simp
  | cons i items ih =>
    obtain ⟨h1, h2, h3⟩ := hi i (by simp)
    obtain ⟨v, hv, hvs⟩ := read_specR i h1
    have hs : specR i = ' ' :: i.value := by rw [specR, if_neg (by simp [h2]), Item.spec, if_neg (by simp [h2])]
    have hnc : startsWith (name ++ ':' :: specR i) ['#'] = false := by
      obtain ⟨c, t, e, -, hc⟩ := name_head _ hn
      rw [e, startsWith]
      simp [List.isPrefixOf, hc.symm]
    have hnd : name ++ ':' :: specR i ≠ ['-'] := by
      intro e
      have := congrArg List.length e
      simp [hs] at this
      omega
    have hu : unpack2 (name ++ ':' :: specR i) = .ok (name, specR i) :=
      unpack_ok _ _ (fun hm => (hn.2.2 _ hm).2.1 rfl) (by rw [hs]; simpa using h3)
    rw [List.map_cons, List.cons_append, readMods]
    simp only [strip_line _ _ hn h1, hnc, Bool.false_eq_true, if_false, hnd, starts_append, if_true, hu, name_no_semi _ hn, hv, hvs]
    rw [if_neg (by omega), ih _ (fun x hx => hi x (by simp [hx]))]
    simp

theorem op_facts (op : ModOp) : modOpOf (opName op) = .ok op ∧ ':' ∉ opName op ∧
    ∃ c t, opName op = c :: t ∧ ¬ isSpace c ∧ c ≠ '#' := by
  cases op
  · exact ⟨by decide, by decide, 'a', _, rfl, by simp only [isSpace]; decide, by decide⟩
  · exact ⟨by decide, by decide, 'r', _, rfl, by simp only [isSpace]; decide, by decide⟩
  · exact ⟨by decide, by decide, 'd', _, rfl, by simp only [isSpace]; decide, by decide⟩

theorem name_strip (a : Str) (h : GoodName a) : strip a = a :=
  strip_id a (fun c hc => (h.2.2 c (List.mem_of_mem_head? (by simpa using hc))).1)
    (fun c hc => (h.2.2 c (List.mem_of_getLast? hc)).1)

theorem readMods_ok (mods : List ModSpec) (acc : List (Mod LVal))
    (h : ∀ m ∈ mods, GoodName m.name ∧ (m.op = .add → m.vals ≠ []) ∧ ∀ i ∈ m.vals, i.Good ∧ i.b64 = false ∧ ':' ∉ i.value) :
    readMods none [] acc (mods.flatMap ModSpec.lines) =
      .ok (acc ++ mods.map (fun m => ⟨m.op, m.name, .list (m.vals.map (fun i => .text i.value))⟩)) := by
  induction mods generalizing acc with
  | nil => simp [readMods]
  | cons m mods ih =>
    obtain ⟨h1, h2, h3⟩ := h m (by simp)
    obtain ⟨ho, hoc, c, t, hct, hcs, hcc⟩ := op_facts m.op
    have hst : strip (opName m.op ++ str ": " ++ m.name) = opName m.op ++ ':' :: (' ' :: m.name) := by
      have e : opName m.op ++ str ": " ++ m.name = opName m.op ++ ':' :: (' ' :: m.name) := by simp
      rw [e]
      apply strip_id
      · intro d hd; rw [hct] at hd; simp at hd; rw [← hd]; exact hcs
      · intro d hd
        rw [List.getLast?_append, List.getLast?_cons, List.getLast?_cons] at hd
        cases hq : m.name.getLast? with
        | none => rw [List.getLast?_eq_none_iff] at hq; exact absurd hq h1.1
        | some e =>
          rw [hq] at hd
          simp at hd
          subst hd
          exact (h1.2.2 e (List.mem_of_getLast? hq)).1
    have hnc : startsWith (opName m.op ++ ':' :: (' ' :: m.name)) ['#'] = false := by
      rw [hct, startsWith]; simp [List.isPrefixOf, hcc.symm]
    have hu : unpack2 (opName m.op ++ ':' :: (' ' :: m.name)) = .ok (opName m.op, ' ' :: m.name) :=
      unpack_ok _ _ hoc (by
        intro hm
        rcases List.mem_cons.1 hm with hm | hm
        · exact absurd hm (by decide)
        · exact (h1.2.2 _ hm).2.1 rfl)
    have hml : modlist m.op [(m.name, .vals (.list ([] ++ m.vals.map (fun i => LVal.text i.value))))] =
        .ok [⟨m.op, m.name, .list (m.vals.map (fun i => .text i.value))⟩] := by
      simp only [modlist, Mod.mk', Vals.len, List.nil_append, List.length_map]
      rw [if_neg]
      rintro ⟨ha, hl⟩
      exact h2 ha (List.length_eq_zero_iff.1 hl)
    have hd : startsWith (strip (str "-")) ['#'] = false := by decide
    have hd2 : strip (str "-") = ['-'] := by decide
    rw [List.flatMap_cons, ModSpec.lines, List.cons_append, List.cons_append, readMods]
    simp only [hst, hnc, Bool.false_eq_true, if_false, hu, ho, strip_space _ _ sp, name_strip _ h1]
    rw [List.append_assoc, readVals_ok _ _ _ _ _ _ h1 h3, List.singleton_append, readMods]
    simp only [hd2, if_true, hml]
    rw [hd2] at hd
    simp only [hd, Bool.false_eq_true, if_false]
    rw [ih _ (fun x hx => h x (by simp [hx]))]
    simp

theorem readModDn_ok (rdn : Item) (del : Bool) (sup : Option Item) (h1 : rdn.Good) (h2 : ∀ p, sup = some p → p.Good) :
    readModDn ([str "newrdn:" ++ rdn.spec, if del then str "deleteoldrdn: 1" else str "deleteoldrdn: 0"] ++
        supLines sup) =
      .ok (.text rdn.value, del, sup.map (fun i => .text i.value)) := by
  have hd : ∀ r, clearComments ((if del then str "deleteoldrdn: 1" else str "deleteoldrdn: 0") :: r) =
      (str "deleteoldrdn:" ++ (if del then str " 1" else str " 0")) :: r := by
    intro r
    cases del
    · exact clearComments_start 'd' _ _ (by simp only [isSpace]; decide) (by decide)
    · exact clearComments_start 'd' _ _ (by simp only [isSpace]; decide) (by decide)
  have hs : strip (if del then str " 1" else str " 0") = if del then str "1" else str "0" := by cases del <;> decide
  rw [readModDn, if_neg (by simp)]
  simp only [List.cons_append, List.nil_append]
  rw [show ('n' :: 'e' :: 'w' :: 'r' :: 'd' :: 'n' :: ':' :: rdn.spec) = str "newrdn:" ++ rdn.spec from rfl, popToken_ok]
  simp only [read_spec rdn h1, hd]
  rw [popToken_ok]
  simp only [hs]
  rw [if_neg (by cases del <;> simp)]
  cases sup with
  | none => cases del <;> rfl
  | some p =>
    simp only [supLines, List.cons_append, List.nil_append]
    rw [show ('n' :: 'e' :: 'w' :: 's' :: 'u' :: 'p' :: 'e' :: 'r' :: 'i' :: 'o' :: 'r' :: ':' :: p.spec) =
      str "newsuperior:" ++ p.spec from rfl]
    have hc : clearComments [str "newsuperior:" ++ p.spec] = [str "newsuperior:" ++ p.spec] :=
      clearComments_start 'n' _ _ (by simp only [isSpace]; decide) (by decide)
    rw [hc, popToken_ok]
    simp only [read_spec p (h2 p rfl)]
    cases del <;> rfl

/-! controls -/

theorem oid_facts (o : Str) (h : Rfc4517.numericoid o) :
    Syntax.numericoid.full o = true ∧ (∃ c t, o = c :: t) ∧ ∀ c ∈ o, (Syntax.digit c || c == '.') = true := by
  have hd : ∀ s, Abnf.many1 Rfc4517.DIGIT s → s ≠ [] ∧ ∀ c ∈ s, Syntax.digit c = true := by
    rintro s ⟨l, hl, rfl, hs⟩
    constructor
    · intro e
      cases l with
      | nil => exact hl rfl
      | cons a l =>
        obtain ⟨c, rfl, -⟩ := hs a (by simp)
        simp at e
    · intro c hc
      obtain ⟨u, hu, hc⟩ := List.mem_flatten.1 hc
      obtain ⟨d, rfl, hd⟩ := hs u hu
      rw [List.mem_singleton.1 hc, SyntaxP.digit_eq]; exact hd
  obtain ⟨u, v, rfl, hu, l, hl, rfl, hv⟩ := h
  have hu := hd u (SyntaxP.number_digits u hu)
  refine ⟨?_, ?_, ?_⟩
  · rw [Rx.full_iff, SyntaxP.lang_numericoid]
    refine ⟨u, _, rfl, SyntaxP.number_digits u (by assumption), l, hl, rfl, fun w hw => ?_⟩
    obtain ⟨a, b, rfl, ha, hb⟩ := hv w hw
    exact ⟨a, b, rfl, ha, SyntaxP.number_digits b hb⟩
  · cases u with
    | nil => exact absurd rfl hu.1
    | cons c t => exact ⟨c, t ++ l.flatten, rfl⟩
  · intro c hc
    rcases List.mem_append.1 hc with hc | hc
    · simp [hu.2 c hc]
    · obtain ⟨w, hw, hc⟩ := List.mem_flatten.1 hc
      obtain ⟨a, b, rfl, rfl, hb⟩ := hv w hw
      rcases List.mem_append.1 hc with hc | hc
      · simp [List.mem_singleton.1 hc]
      · simp [(hd b (SyntaxP.number_digits b hb)).2 c hc]

theorem oid_char (c : Char) (h : (Syntax.digit c || c == '.') = true) : 33 ≤ c.toNat ∧ c.toNat < 128 ∧ c ≠ ':' ∧ c ≠ '<' := by
  simp only [Bool.or_eq_true, beq_iff_eq] at h
  rcases h with h | rfl
  · rw [SyntaxP.digit_eq] at h
    simp only [Char.isDigit, Bool.and_eq_true, decide_eq_true_eq, UInt32.le_iff_toNat_le] at h
    have h1 : 48 ≤ c.toNat := h.1
    have h2 : c.toNat ≤ 57 := h.2
    refine ⟨by omega, by omega, ?_, ?_⟩ <;> rintro rfl
    · exact absurd h2 (by decide)
    · exact absurd h2 (by decide)
  · decide

theorem strip_trailing (a : Char) (s : Str) (ha : ¬ isSpace a) : strip (a :: s ++ [' ']) = strip (a :: s) := by
  rw [isSpace, Bool.not_eq_true] at ha
  simp [strip, pyStrip, ha, sp]

/-- what stands between the OID and the value -/
def critText (c : Ctl) : Str := match c.crit with | none => [] | some true => str " true" | some false => str " false"

/-- the value as it is found -/
def ctlTail (c : Ctl) : Str := if Codec.b64Enc c.value = [] then str "::" else str ":: " ++ Codec.b64Enc c.value

theorem ctl_strip (c : Ctl) (h : Rfc4517.numericoid c.oid) : strip (c.line.drop 8) = c.oid ++ (critText c ++ ctlTail c) := by
  obtain ⟨-, ⟨a, t, ho⟩, hch⟩ := oid_facts _ h
  have ha : ¬ isSpace a := ascii_not_space a ⟨(oid_char a (hch a (by rw [ho]; simp))).1, (oid_char a (hch a (by rw [ho]; simp))).2.1⟩
  have e : c.line.drop 8 = ' ' :: (c.oid ++ (critText c ++ (str ":: " ++ Codec.b64Enc c.value))) := by
    simp [Ctl.line, critText]; rfl
  rw [e, strip_space _ _ sp, ctlTail]
  split
  · rename_i hb
    have e2 : c.oid ++ (critText c ++ (str ":: " ++ Codec.b64Enc c.value)) = a :: (t ++ (critText c ++ str "::")) ++ [' '] := by
      rw [hb, ho]; simp
    rw [e2, strip_trailing _ _ ha, strip_id]
    · rw [ho]; simp
    · intro d hd; simp at hd; rw [← hd]; exact ha
    · intro d hd
      have : (a :: (t ++ (critText c ++ str "::"))) = (a :: (t ++ (critText c ++ [':']))) ++ [':'] := by simp
      rw [this, List.getLast?_append] at hd
      simp at hd
      rw [← hd]; exact colon_not_space
  · rename_i hb
    apply strip_id
    · intro d hd; rw [ho] at hd; simp at hd; rw [← hd]; exact ha
    · intro d hd
      rw [← List.append_assoc, ← List.append_assoc, List.getLast?_append] at hd
      cases hq : (Codec.b64Enc c.value).getLast? with
      | none => rw [List.getLast?_eq_none_iff] at hq; exact absurd hq hb
      | some x =>
        rw [hq] at hd
        simp only [Option.some_or, Option.some.injEq] at hd
        subst hd
        exact ascii_not_space _ (Codec.b64_chars _ _ (List.mem_of_getLast? hq)).1

theorem takeWhile_stop {p : Char → Bool} (u v : Str) (hu : ∀ c ∈ u, p c = true) (hv : ∀ c, v.head? = some c → p c = false) :
    (u ++ v).takeWhile p = u ∧ (u ++ v).dropWhile p = v := by
  induction u with
  | nil =>
    cases v with
    | nil => exact ⟨rfl, rfl⟩
    | cons c v => have := hv c rfl; simp [this]
  | cons a u ih =>
    obtain ⟨h1, h2⟩ := ih (fun c hc => hu c (by simp [hc]))
    have := hu a (by simp)
    simp [this, h1, h2]

theorem tail_shape (c : Ctl) : ∃ t, ctlTail c = ':' :: ':' :: t ∧ '\n' ∉ t := by
  unfold ctlTail
  split
  · exact ⟨[], rfl, by simp⟩
  · refine ⟨' ' :: Codec.b64Enc c.value, rfl, ?_⟩
    intro hm
    rcases List.mem_cons.1 hm with hm | hm
    · exact absurd hm (by decide)
    · exact absurd (Codec.b64_chars _ _ hm).1.1 (by decide)

theorem ctl_parts (c : Ctl) (h : Rfc4517.numericoid c.oid) : ctrlParts (strip (c.line.drop 8)) = some (c.oid, c.crit, ctlTail c) := by
  obtain ⟨hf, -, hch⟩ := oid_facts _ h
  obtain ⟨t, ht, hn⟩ := tail_shape c
  rw [ctl_strip c h, ctrlParts]
  obtain ⟨h1, h2⟩ := takeWhile_stop (p := fun c => Syntax.digit c || c == '.') c.oid (critText c ++ ctlTail c) hch (by
    intro d hd
    rw [critText, ht] at hd
    cases hc : c.crit with
    | none => rw [hc] at hd; simp at hd; rw [← hd]; decide
    | some b => cases b <;> (rw [hc] at hd; simp at hd; rw [← hd]; decide))
  simp only [h1, h2]
  simp only [hf, ht]
  cases hc : c.crit with
  | none => simp [critText, hc, startsWith, hn]
  | some b => cases b <;> simp [critText, hc, startsWith, hn]

theorem a2b_skip (x : Char) (h1 : x ≠ '=') (h2 : Codec.b64Val x = none) (s : Str) : Codec.a2b 0 0 0 [] (x :: s) = Codec.a2b 0 0 0 [] s := by
  rw [Codec.a2b.eq_def]; simp [h1, h2]

theorem ctl_value (c : Ctl) : readVal (ctlTail c) = .ok (valueOf c.value) := by
  have hr := Codec.a2b_enc c.value []
  have key : ∀ x, strip x = x → Codec.a2b 0 0 0 [] x = some c.value → x.all (fun c => Nat.blt c.toNat 128) = true →
      readVal (':' :: x) = .ok (valueOf c.value) := by
    intro x h1 h2 h3
    rw [readVal]
    simp only [if_true, handleBase64, List.drop_one, List.tail_cons, h1, Codec.b64Dec, h2, h3, valueOf]
    split <;> simp_all
  unfold ctlTail
  split
  · rename_i hb
    rw [hb] at hr
    apply key [':'] (by decide) _ (by decide)
    rw [a2b_skip _ (by decide) (by decide), hr]; rfl
  · rename_i hb
    apply key (':' :: ' ' :: Codec.b64Enc c.value)
    · apply strip_id
      · intro d hd; simp at hd; rw [← hd]; exact colon_not_space
      · intro d hd
        rw [List.getLast?_cons_cons, List.getLast?_cons] at hd
        cases hq : (Codec.b64Enc c.value).getLast? with
        | none => rw [List.getLast?_eq_none_iff] at hq; exact absurd hq hb
        | some x =>
          rw [hq] at hd
          simp only [Option.getD_some, Option.some.injEq] at hd
          subst hd
          exact ascii_not_space _ (Codec.b64_chars _ _ (List.mem_of_getLast? hq)).1
    · rw [a2b_skip _ (by decide) (by decide), a2b_skip _ (by decide) (by decide), hr]; rfl
    · have : (Codec.b64Enc c.value).all (fun c => Nat.blt c.toNat 128) = true := by
        rw [List.all_eq_true]; intro d hd; rw [Nat.blt_eq]; exact (Codec.b64_chars _ d hd).1.2
      rw [List.all_cons, List.all_cons, this]; decide

theorem ctl_start (c : Ctl) : startsWith c.line (str "control:") = true := by
  rw [Ctl.line, startsWith]; simp [List.isPrefixOf]

/-- one control line -/
theorem readControls_cons (env : Env) (acc : PDict Str Ctrl) (c : Ctl) (h : Rfc4517.numericoid c.oid) (m : Str) (rest : List Str) :
    readControls env acc (c.line :: m :: rest) =
      match env.keyword c.oid with
      | none => if c.crit.getD env.defaultCrit then .error .ldapSupport else readControls env acc (m :: rest)
      | some kw => readControls env (acc.set kw ⟨valueOf c.value, c.crit⟩) (m :: rest) := by
  rw [readControls]
  simp only [ctl_start, if_true, ctl_parts c h, ctl_value]
  cases c.crit <;> rfl

theorem readControls_ok (env : Env) (cs : List Ctl) (hg : ∀ c ∈ cs, Rfc4517.numericoid c.oid) (hs : ∀ c ∈ cs, Supported env c)
    (acc : PDict Str Ctrl) (hn : (acc.map Prod.fst).Nodup) :
    ∃ d : PDict Str Ctrl, (d.map Prod.fst).Nodup ∧ (∀ x rest, readControls env acc (cs.map Ctl.line ++ (str "changetype:" ++ x) :: rest) = .ok (d, (str "changetype:" ++ x) :: rest)) ∧
      ∀ kw, d.get? kw = match (cs.filter (fun c => env.keyword c.oid = some kw)).getLast? with
        | some c => some ⟨valueOf c.value, c.crit⟩
        | none => acc.get? kw := by
  induction cs generalizing acc with
  | nil =>
    refine ⟨acc, hn, fun x rest => ?_, fun kw => rfl⟩
    have hf : startsWith (str "changetype:" ++ x) (str "control:") = false := by
      rw [startsWith]; simp [List.isPrefixOf]
    rw [List.map_nil, List.nil_append]
    cases rest with
    | nil => rfl
    | cons y rest => rw [readControls, hf]; rfl
  | cons c cs ih =>
    have hg' := fun c hc => hg c (List.mem_cons_of_mem _ hc)
    have hs' := fun c hc => hs c (List.mem_cons_of_mem _ hc)
    have step : ∀ x rest, readControls env acc ((c :: cs).map Ctl.line ++ (str "changetype:" ++ x) :: rest) =
        match env.keyword c.oid with
        | none => if c.crit.getD env.defaultCrit then .error .ldapSupport
            else readControls env acc (cs.map Ctl.line ++ (str "changetype:" ++ x) :: rest)
        | some kw => readControls env (acc.set kw ⟨valueOf c.value, c.crit⟩) (cs.map Ctl.line ++ (str "changetype:" ++ x) :: rest) := by
      intro x rest
      have hne : ∃ m r, cs.map Ctl.line ++ (str "changetype:" ++ x) :: rest = m :: r := by
        cases cs with
        | nil => exact ⟨_, _, rfl⟩
        | cons c' cs => exact ⟨_, _, rfl⟩
      obtain ⟨m, r, hm⟩ := hne
      rw [List.map_cons, List.cons_append, hm, readControls_cons _ _ _ (hg c (by simp))]
    cases hk : env.keyword c.oid with
    | none =>
      have : c.crit.getD env.defaultCrit = false := by
        rcases hs c (by simp) with h | h
        · exact absurd hk h
        · exact h
      simp only [hk, this, Bool.false_eq_true, if_false] at step
      obtain ⟨d, h0, h1, h2⟩ := ih hg' hs' acc hn
      exact ⟨d, h0, fun x rest => by rw [step, h1], fun kw => by rw [h2 kw]; simp [hk]⟩
    | some k =>
      obtain ⟨d, h0, h1, h2⟩ := ih hg' hs' (acc.set k ⟨valueOf c.value, c.crit⟩) (PDict.nodup_set acc _ _ hn)
      simp only [hk] at step
      refine ⟨d, h0, fun x rest => by rw [step, h1], fun kw => ?_⟩
      rw [h2 kw]
      by_cases e : k = kw
      · subst e
        rw [List.filter_cons]
        simp only [hk, decide_true, if_true, List.getLast?_cons]
        cases (cs.filter (fun c => decide (env.keyword c.oid = some k))).getLast? with
        | none => simp [PDict.get?_set]
        | some z => simp
      · rw [List.filter_cons]
        simp only [hk, Option.some.injEq, e, decide_false, Bool.false_eq_true, if_false]
        cases (cs.filter (fun c => decide (env.keyword c.oid = some kw))).getLast? with
        | none => simp [PDict.get?_set, Ne.symm e]
        | some z => rfl

/-- a control that must be understood and is not -/
theorem readControls_unknown (env : Env) (cs : List Ctl) (c : Ctl) (cs' : List Ctl) (hg : ∀ c ∈ cs, Rfc4517.numericoid c.oid)
    (hc : Rfc4517.numericoid c.oid) (hn : ¬ Supported env c) (x : Str) (rest : List Str) (acc : PDict Str Ctrl) :
    readControls env acc ((cs ++ c :: cs').map Ctl.line ++ (str "changetype:" ++ x) :: rest) = .error .ldapSupport := by
  have hk : env.keyword c.oid = none := Classical.byContradiction (fun h => hn (.inl h))
  have hcr : c.crit.getD env.defaultCrit = true := by
    cases h : c.crit.getD env.defaultCrit
    · exact absurd (.inr h) hn
    · rfl
  induction cs generalizing acc with
  | nil =>
    have hne : ∃ m r, cs'.map Ctl.line ++ (str "changetype:" ++ x) :: rest = m :: r := by
      cases cs' with
      | nil => exact ⟨_, _, rfl⟩
      | cons c' cs => exact ⟨_, _, rfl⟩
    obtain ⟨m, r, hm⟩ := hne
    rw [List.nil_append, List.map_cons, List.cons_append, hm, readControls_cons _ _ _ hc]
    simp only [hk, hcr, if_true]
  | cons d cs ih =>
    have ih := fun acc => ih (fun c hc => hg c (List.mem_cons_of_mem _ hc)) acc
    have hne : ∃ m r, (cs ++ c :: cs').map Ctl.line ++ (str "changetype:" ++ x) :: rest = m :: r := by
      cases cs with
      | nil => exact ⟨_, _, rfl⟩
      | cons c' cs => exact ⟨_, _, rfl⟩
    obtain ⟨m, r, hm⟩ := hne
    rw [List.cons_append, List.map_cons, List.cons_append, hm, readControls_cons _ _ _ (hg d (by simp)), ← hm]
    split
    · split
      · rfl
      · exact ih acc
    · exact ih _

/-- one record is read as the call it describes -/
theorem record_ok (env : Env) (r : Record) (h : r.Good) (hsup : ∀ c ∈ r.controls, Supported env c) : ∃ op, readLines env r.lines = .ok op ∧ Means env r op := by
  obtain ⟨hdn, hctl, hch⟩ := h
  have hcl : ∀ rest, clearComments ((str "dn:" ++ r.dn.spec) :: rest) = (str "dn:" ++ r.dn.spec) :: rest := fun rest =>
    clearComments_start 'd' _ _ (by simp only [isSpace]; decide) (by decide)
  have hcl2 : ∀ x rest, clearComments (r.controls.map Ctl.line ++ (str "changetype:" ++ x) :: rest) = r.controls.map Ctl.line ++ (str "changetype:" ++ x) :: rest := by
    intro x rest
    cases r.controls with
    | nil => exact clearComments_start 'c' _ _ (by simp only [isSpace]; decide) (by decide)
    | cons c cs =>
      rw [List.map_cons, List.cons_append, Ctl.line]
      exact clearComments_start 'c' _ _ (by simp only [isSpace]; decide) (by decide)
  have hcm : ∃ ctrls, CtrlsMean env r.controls ctrls ∧ ∀ x rest,
      readControls env [] (r.controls.map Ctl.line ++ (str "changetype:" ++ x) :: rest) = .ok (ctrls, (str "changetype:" ++ x) :: rest) := by
    obtain ⟨d, h0, h1, h2⟩ := readControls_ok env r.controls hctl hsup [] List.nodup_nil
    refine ⟨d, ⟨h0, fun kw => ?_⟩, h1⟩
    rw [h2 kw]
    cases (r.controls.filter (fun c => decide (env.keyword c.oid = some kw))).getLast? <;> rfl
  obtain ⟨ctrls, hctrls, hctl⟩ := hcm
  have main : ∀ x rest ct, r.change.lines = (str "changetype:" ++ x) :: rest → strip x = ct →
      readLines env r.lines = readBody (.text r.dn.value) ctrls ct (clearComments rest) := by
    intro x rest ct hl hx
    rw [readLines, Record.lines, hl, hcl, popToken_ok]
    simp only [read_spec r.dn hdn]
    rw [hcl2, hctl]
    simp only []
    rw [popToken_ok, hx]
  cases hc : r.change with
  | add attrs =>
    rw [hc] at hch
    obtain ⟨d, hd, hd0, hd1, hd2⟩ := readAttrs_ok attrs hch [] List.nodup_nil nofun
    have hcc : clearComments (attrs.map (fun ai => ai.1 ++ ':' :: ai.2.spec)) = attrs.map (fun ai => ai.1 ++ ':' :: ai.2.spec) := by
      cases attrs with
      | nil => rfl
      | cons ai attrs =>
        obtain ⟨c, t, e, h1, h2⟩ := name_head _ (hch ai (by simp)).1
        rw [List.map_cons, e, List.cons_append]
        exact clearComments_start c _ _ h1 h2
    refine ⟨.add (.text r.dn.value) d ctrls, ?_, ?_⟩
    · rw [main (str " add") _ (str "add") (by rw [hc]; rfl) (by decide), hcc, readBody, if_pos rfl, hd]
    · simp only [Means, hc]
      exact ⟨trivial, hctrls, hd0, fun kv hkv => hd1 kv.1 kv.2 ((PDict.mem_iff_get? d hd0 kv.1 kv.2).1 hkv), fun a => by simpa using hd2 a⟩
  | delete =>
    refine ⟨.delete (.text r.dn.value) ctrls, ?_, ?_⟩
    · rw [main (str " delete") [] (str "delete") (by rw [hc]; rfl) (by decide)]; rfl
    · simp only [Means, hc]; exact ⟨trivial, hctrls⟩
  | modify mods =>
    rw [hc] at hch
    have hcc : clearComments (mods.flatMap ModSpec.lines) = mods.flatMap ModSpec.lines := by
      cases mods with
      | nil => rfl
      | cons m mods =>
        obtain ⟨-, -, c, t, e, h1, h2⟩ := op_facts m.op
        rw [List.flatMap_cons, ModSpec.lines, e, List.cons_append, List.cons_append, List.cons_append, List.cons_append]
        exact clearComments_start c _ _ h1 h2
    refine ⟨.modify (.text r.dn.value) ([] ++ mods.map (fun m => ⟨m.op, m.name, .list (m.vals.map (fun i => .text i.value))⟩)) ctrls,
      ?_, ?_⟩
    · rw [main (str " modify") _ (str "modify") (by rw [hc]; rfl) (by decide), hcc, readBody, if_neg (by decide), if_neg (by decide),
        if_pos rfl, readMods_ok mods [] hch]
    · simp only [Means, hc]; exact ⟨trivial, hctrls, by simp⟩
  | rename md rdn del sup =>
    rw [hc] at hch
    have hcc : ∀ rest, clearComments ((str "newrdn:" ++ rdn.spec) :: rest) = (str "newrdn:" ++ rdn.spec) :: rest := fun rest =>
      clearComments_start 'n' _ _ (by simp only [isSpace]; decide) (by decide)
    have hb := readModDn_ok rdn del sup hch.1 hch.2
    refine ⟨.modDn (.text r.dn.value) (.text rdn.value) del (sup.map (fun i => .text i.value)) ctrls, ?_, ?_⟩
    · have key : ∀ x ct, r.change.lines = (str "changetype:" ++ x) :: ([str "newrdn:" ++ rdn.spec,
          if del then str "deleteoldrdn: 1" else str "deleteoldrdn: 0"] ++
          supLines sup) → strip x = ct → (ct = str "modrdn" ∨ ct = str "moddn") →
          readLines env r.lines = .ok (.modDn (.text r.dn.value) (.text rdn.value) del (sup.map (fun i => .text i.value)) ctrls) := by
        intro x ct hl hx hct
        rw [main x _ ct hl hx]
        have h1 : ct ≠ str "add" := by rcases hct with rfl | rfl <;> decide
        have h2 : ct ≠ str "delete" := by rcases hct with rfl | rfl <;> decide
        have h3 : ct ≠ str "modify" := by rcases hct with rfl | rfl <;> decide
        rw [readBody, if_neg h1, if_neg h2, if_neg h3, if_pos hct, List.cons_append, hcc, ← List.cons_append, hb]
      cases md
      · exact key (str " modrdn") (str "modrdn") (by rw [hc]; rfl) (by decide) (.inl rfl)
      · exact key (str " moddn") (str "moddn") (by rw [hc]; rfl) (by decide) (.inr rfl)
    · simp only [Means, hc]; exact ⟨trivial, hctrls, trivial, trivial, trivial⟩

/-- a record with a control that must be understood and is not -/
theorem record_unknown (env : Env) (r : Record) (h : r.Good) (hun : ∃ c ∈ r.controls, ¬ Supported env c) :
    readLines env r.lines = .error .ldapSupport := by
  obtain ⟨hdn, hctl, -⟩ := h
  obtain ⟨c, hc, hn⟩ := hun
  obtain ⟨cs, cs', e⟩ := List.append_of_mem hc
  have hch : ∃ x rest, r.change.lines = (str "changetype:" ++ x) :: rest := by
    cases r.change with
    | add attrs => exact ⟨str " add", _, rfl⟩
    | delete => exact ⟨str " delete", _, rfl⟩
    | modify mods => exact ⟨str " modify", _, rfl⟩
    | rename md rdn del sup =>
      cases md
      · exact ⟨str " modrdn", _, rfl⟩
      · exact ⟨str " moddn", _, rfl⟩
  obtain ⟨x, rest, hx⟩ := hch
  have hcl2 : clearComments (r.controls.map Ctl.line ++ (str "changetype:" ++ x) :: rest) =
      r.controls.map Ctl.line ++ (str "changetype:" ++ x) :: rest := by
    cases r.controls with
    | nil => exact clearComments_start 'c' _ _ (by simp only [isSpace]; decide) (by decide)
    | cons c cs =>
      rw [List.map_cons, List.cons_append, Ctl.line]
      exact clearComments_start 'c' _ _ (by simp only [isSpace]; decide) (by decide)
  have hcl : ∀ rest, clearComments ((str "dn:" ++ r.dn.spec) :: rest) = (str "dn:" ++ r.dn.spec) :: rest := fun rest =>
    clearComments_start 'd' _ _ (by simp only [isSpace]; decide) (by decide)
  rw [readLines, Record.lines, hx, hcl, popToken_ok]
  simp only [read_spec r.dn hdn]
  rw [hcl2, e, readControls_unknown env cs c cs' (fun d hd => hctl d (by rw [e]; simp [hd])) (hctl c hc) hn]

/-! the lines of a record -/

theorem line_ok (a spec : Str) (h1 : a ≠ []) (h2 : ∀ c ∈ a, isBreak c = false ∧ c ≠ ':') (h3 : a.head? ≠ some ' ')
    (h4 : ∀ c ∈ spec, isBreak c = false) (h5 : NoPair ':' '<' spec) (h6 : spec.head? ≠ some '<') : LineOk (a ++ ':' :: spec) := by
  refine ⟨by simp, fun c hc => ?_, by rw [head_append_ne _ _ h1]; exact h3, ?_⟩
  · rcases List.mem_append.1 hc with hc | hc
    · exact (h2 c hc).1
    · rcases List.mem_cons.1 hc with rfl | hc
      · decide
      · exact h4 c hc
  · have e : a ++ ':' :: spec = (a ++ [':']) ++ spec := by simp
    rw [e]
    refine noPair_append _ _ _ _ ?_ h5 (fun _ he => h6 he)
    refine noPair_append _ _ _ _ ?_ (noPair_single _ _ _) (fun _ he => by simp at he)
    intro u v he
    exact (h2 ':' (by rw [he]; simp)).2 rfl

theorem not_space_break (c : Char) (h : ¬ isSpace c) : isBreak c = false := by
  cases hb : isBreak c with
  | false => rfl
  | true => exact absurd (break_space c hb) h

theorem spec_ok (i : Item) (h : i.Good) :
    (∀ c ∈ i.spec, isBreak c = false) ∧ NoPair ':' '<' i.spec ∧ i.spec.head? ≠ some '<' := by
  have hb64 : ∀ c ∈ Codec.b64Enc (Codec.utf8Enc i.value), isBreak c = false := fun c hc =>
    not_space_break c (ascii_not_space c (Codec.b64_chars _ c hc).1)
  unfold Item.spec
  split
  · refine ⟨fun c hc => ?_, fun u v e => ?_, by simp⟩
    · rcases List.mem_append.1 hc with hc | hc
      · have : c = ':' ∨ c = ' ' := by simpa using hc
        rcases this with rfl | rfl <;> decide
      · exact hb64 c hc
    · have hm : '<' ∈ str ": " ++ Codec.b64Enc (Codec.utf8Enc i.value) := by rw [e]; simp
      rcases List.mem_append.1 hm with hm | hm
      · exact absurd hm (by decide)
      · exact (Codec.b64_chars _ _ hm).2.2 rfl
  · rename_i hb
    obtain ⟨-, -, h3, h4⟩ := h.2.2 (by simpa using hb)
    refine ⟨fun c hc => ?_, ?_, by simp⟩
    · rcases List.mem_cons.1 hc with rfl | hc
      · decide
      · exact h3 c hc
    · have : ' ' :: i.value = [' '] ++ i.value := rfl
      rw [this]
      exact noPair_append _ _ _ _ (noPair_single _ _ _) h4 (fun e => by simp at e)

theorem name_ok (a : Str) (h : GoodName a) : (∀ c ∈ a, isBreak c = false ∧ c ≠ ':') ∧ a.head? ≠ some ' ' :=
  ⟨fun c hc => ⟨not_space_break c (h.2.2 c hc).1, (h.2.2 c hc).2.1⟩,
   fun e => (h.2.2 ' ' (List.mem_of_mem_head? (by simpa using e))).1 sp⟩

theorem datum_line_ok (a : Str) (d : Datum) (ha : GoodName a) (hd : d.Good) : LineOk (a ++ ':' :: d.spec) := by
  cases d with
  | text i => exact line_ok a i.spec ha.1 (name_ok a ha).1 (name_ok a ha).2 (spec_ok i hd).1 (spec_ok i hd).2.1 (spec_ok i hd).2.2
  | octets b =>
    refine line_ok a _ ha.1 (name_ok a ha).1 (name_ok a ha).2 (fun c hc => ?_) (fun u v e => ?_) (by simp [Datum.spec])
    · rcases List.mem_append.1 hc with hc | hc
      · have : c = ':' ∨ c = ' ' := by simpa using hc
        rcases this with rfl | rfl <;> decide
      · exact not_space_break c (ascii_not_space c (Codec.b64_chars _ c hc).1)
    · have hm : '<' ∈ str ": " ++ Codec.b64Enc b := by
        rw [show str ": " ++ Codec.b64Enc b = (Datum.octets b).spec from rfl, e]
        simp
      rcases List.mem_append.1 hm with hm | hm
      · exact absurd hm (by decide)
      · exact (Codec.b64_chars _ _ hm).2.2 rfl

theorem attr_line_ok (a : Str) (i : Item) (ha : GoodName a) (hi : i.Good) : LineOk (a ++ ':' :: i.spec) :=
  line_ok a i.spec ha.1 (name_ok a ha).1 (name_ok a ha).2 (spec_ok i hi).1 (spec_ok i hi).2.1 (spec_ok i hi).2.2

theorem token_line_ok (a : Str) (i : Item) (ha : a ≠ [] ∧ (∀ c ∈ a, isBreak c = false ∧ c ≠ ':') ∧ a.head? ≠ some ' ') (hi : i.Good) :
    LineOk (a ++ ':' :: i.spec) :=
  line_ok a i.spec ha.1 ha.2.1 ha.2.2 (spec_ok i hi).1 (spec_ok i hi).2.1 (spec_ok i hi).2.2

/-- literal lines -/
theorem literal_ok (l : Str) (h : l ≠ [] ∧ (∀ c ∈ l, isBreak c = false ∧ c ≠ '<') ∧ l.head? ≠ some ' ') : LineOk l :=
  ⟨h.1, fun c hc => (h.2.1 c hc).1, h.2.2, fun u v e => (h.2.1 '<' (by rw [e]; simp)).2 rfl⟩

theorem ctl_line_ok (c : Ctl) (h : Rfc4517.numericoid c.oid) : LineOk c.line := by
  obtain ⟨-, -, ho⟩ := oid_facts _ h
  have hasc : ∀ x : Char, 33 ≤ x.toNat ∧ x.toNat < 128 → isBreak x = false := fun x hx =>
    not_space_break x (ascii_not_space x hx)
  have key1 : ∀ x ∈ str "control: ", isBreak x = false ∧ x ≠ '<' := by decide
  have key2 : ∀ x ∈ str " false", isBreak x = false ∧ x ≠ '<' := by decide
  have key3 : ∀ x ∈ str " true", isBreak x = false ∧ x ≠ '<' := by decide
  have key4 : ∀ x ∈ str ":: ", isBreak x = false ∧ x ≠ '<' := by decide
  refine literal_ok _ ⟨by simp [Ctl.line], fun x hx => ?_, by simp [Ctl.line]⟩
  rw [Ctl.line] at hx
  rcases List.mem_append.1 hx with hx | hx
  · rcases List.mem_append.1 hx with hx | hx
    · rcases List.mem_append.1 hx with hx | hx
      · rcases List.mem_append.1 hx with hx | hx
        · exact key1 x hx
        · obtain ⟨h1, h2, -, h4⟩ := oid_char x (ho x hx)
          exact ⟨hasc x ⟨h1, h2⟩, h4⟩
      · rcases hcr : c.crit with _ | _ | _ <;> rw [hcr] at hx
        · exact absurd hx (by simp)
        · exact key2 x hx
        · exact key3 x hx
    · exact key4 x hx
  · have := Codec.b64_chars _ x hx
    refine ⟨hasc x this.1, ?_⟩
    rintro rfl
    revert this
    simp

theorem record_lines_ok (r : Record) (h : r.Good) : ∀ l ∈ r.lines, LineOk l := by
  obtain ⟨hdn, hctl, hch⟩ := h
  intro l hl
  rw [Record.lines, List.mem_cons, List.mem_append] at hl
  rcases hl with rfl | hl | hl
  · exact token_line_ok (str "dn") r.dn (by decide) hdn
  · obtain ⟨c, hc, rfl⟩ := List.mem_map.1 hl
    exact ctl_line_ok c (hctl c hc)
  · cases hc : r.change with
    | add attrs =>
      rw [hc] at hch hl
      simp only [Change.lines, List.mem_cons, List.mem_map] at hl
      rcases hl with rfl | ⟨ai, hm, rfl⟩
      · exact literal_ok _ (by decide)
      · exact datum_line_ok _ _ (hch ai hm).1 (hch ai hm).2
    | delete =>
      rw [hc] at hl
      simp only [Change.lines, List.mem_singleton] at hl
      rw [hl]; exact literal_ok _ (by decide)
    | modify mods =>
      rw [hc] at hch hl
      simp only [Change.lines, List.mem_cons, List.mem_flatMap] at hl
      rcases hl with rfl | ⟨m, hm, hl⟩
      · exact literal_ok _ (by decide)
      · obtain ⟨h1, -, h3⟩ := hch m hm
        simp only [ModSpec.lines, List.mem_cons, List.mem_append, List.mem_map, List.not_mem_nil, or_false, List.cons_append] at hl
        rcases hl with rfl | ⟨i, hi, rfl⟩ | rfl
        · have e : opName m.op ++ str ": " ++ m.name = opName m.op ++ ':' :: (' ' :: m.name) := by simp
          have hop : opName m.op ≠ [] ∧ (∀ c ∈ opName m.op, isBreak c = false ∧ c ≠ ':') ∧ (opName m.op).head? ≠ some ' ' := by
            cases m.op <;> decide
          rw [e]
          refine line_ok _ _ hop.1 hop.2.1 hop.2.2 (fun c hc => ?_) (fun u v e => ?_) (by simp)
          · rcases List.mem_cons.1 hc with rfl | hc
            · decide
            · exact ((name_ok _ h1).1 c hc).1
          · have hmem : ':' ∈ ' ' :: m.name := by rw [e]; simp
            rcases List.mem_cons.1 hmem with hmem | hmem
            · exact absurd hmem (by decide)
            · exact (h1.2.2 _ hmem).2.1 rfl
        · exact attr_line_ok _ _ h1 (h3 i hi).1
        · exact literal_ok _ (by decide)
    | rename md rdn del sup =>
      rw [hc] at hch hl
      simp only [Change.lines, List.mem_cons, List.mem_append, List.not_mem_nil, or_false] at hl
      rcases hl with (rfl | rfl | rfl) | hl
      · cases md <;> exact literal_ok _ (by decide)
      · exact token_line_ok (str "newrdn") rdn (by decide) hch.1
      · cases del <;> exact literal_ok _ (by decide)
      · cases sup with
        | none => simp [supLines] at hl
        | some p =>
          simp only [supLines, List.mem_singleton] at hl
          rw [hl]; exact token_line_ok (str "newsuperior") p (by decide) (hch.2 p rfl)

theorem file_ok (version : Bool) (l : List (Record × Nat)) (hs : Separated l) (hg : ∀ rk ∈ l, rk.1.Good) :
    TextOk (file version l) := by
  have hb := body_ok l hs (fun rk hrk => record_lines_ok rk.1 (hg rk hrk))
  cases version with
  | false => exact hb
  | true =>
    have hhead : (body l).head? ≠ some ' ' ∧ (body l).head? ≠ some '<' := by
      cases l with
      | nil => simp [body]
      | cons b l =>
        obtain ⟨r2, k2⟩ := b
        have hh : (body ((r2, k2) :: l)).head? = some 'd' := by
          rw [body, List.append_assoc, head_append_ne _ _ (join_ne_nil _ (by simp [Record.lines])
            (record_lines_ok r2 (hg (r2, k2) (by simp)))), Record.lines, join_head _ _ (by simp)]
          rfl
        rw [hh]; decide
    have hv : TextOk (str "version: 1\n") := by
      have := join_ok [str "version: 1"] (by
        intro x hx
        rw [List.mem_singleton.1 hx]; exact literal_ok _ (by decide))
      have e : str "version: 1\n" = pyJoin ['\n'] [str "version: 1"] ++ ['\n'] := by decide
      rw [e]
      refine ⟨fun c hc => ?_, noPair_append _ _ _ _ this.cont (noPair_single _ _ _) (fun _ h => by simp at h),
        noPair_append _ _ _ _ this.url (noPair_single _ _ _) (fun _ h => by simp at h)⟩
      rcases List.mem_append.1 hc with hc | hc
      · exact this.chars c hc
      · exact .inl (by simpa using hc)
    unfold file
    rw [if_pos rfl]
    refine ⟨fun c hc => ?_, noPair_append _ _ _ _ hv.cont hb.cont (fun _ h => hhead.1 h),
      noPair_append _ _ _ _ hv.url hb.url (fun _ h => hhead.2 h)⟩
    rcases List.mem_append.1 hc with hc | hc
    · exact hv.chars c hc
    · exact hb.chars c hc

theorem version_ok (version : Bool) (l : List (Record × Nat)) (hne : version = true ∨ l ≠ []) (hg : ∀ rk ∈ l, rk.1.Good) :
    versionRest (file version l) = .ok (body l) := by
  cases version with
  | true =>
    have e : file true l = str "version: 1" ++ ('\n' :: body l) := by simp [file]
    rw [e, versionRest, splitLines, go_clean _ _ _ _ (by decide), go_newline]
    simp only [if_true, List.nil_append]
    rw [show (str "version: 1" ++ ['\n'] : Str) = 'v' :: str "ersion: 1\n" from rfl,
      clearComments_start 'v' _ _ (by simp only [isSpace]; decide) (by decide)]
    have h1 : startsWith ('v' :: str "ersion: 1\n") (str "version:") = true := by decide
    have h2 : ¬ strip (List.drop 8 ('v' :: str "ersion: 1\n")) ≠ str "1" := by decide
    simp only [h1, if_true]
    rw [if_neg h2, go_flatten]
    rfl
  | false =>
    have hne : l ≠ [] := by rcases hne with h | h
                            · cases h
                            · exact h
    have e : file false l = body l := by simp [file]
    rw [e]
    cases l with
    | nil => exact absurd rfl hne
    | cons rk l =>
      obtain ⟨r, k⟩ := rk
      have hfl := go_flatten [] (body ((r, k) :: l))
      -- the first line
      have hdn : ∃ rest, body ((r, k) :: l) = (str "dn:" ++ r.dn.spec) ++ rest ∧ (rest = [] ∨ ∃ t, rest = '\n' :: t) := by
        simp only [body, Record.lines]
        cases hc : r.controls.map Ctl.line ++ r.change.lines with
        | nil =>
          exfalso
          revert hc
          cases r.change <;> simp [Change.lines]
        | cons x xs =>
          rw [pyJoin_cons _ _ _ (by simp)]
          exact ⟨['\n'] ++ pyJoin ['\n'] (x :: xs) ++ List.replicate k '\n' ++ body l, by simp, .inr ⟨_, rfl⟩⟩
      obtain ⟨rest, hb, hrest⟩ := hdn
      have hl := record_lines_ok r (hg (r, k) (by simp)) (str "dn:" ++ r.dn.spec) (by simp [Record.lines])
      have hfirst : ∃ x xs, splitLines true (body ((r, k) :: l)) = ('d' :: x) :: xs := by
        rw [hb, splitLines, go_clean _ _ _ _ hl.clean, List.nil_append]
        rcases hrest with rfl | ⟨t, rfl⟩
        · exact ⟨'n' :: ':' :: r.dn.spec, [], by simp [splitLinesGo]⟩
        · rw [go_newline]; exact ⟨'n' :: ':' :: r.dn.spec ++ ['\n'], _, rfl⟩
      obtain ⟨x, xs, hx⟩ := hfirst
      rw [versionRest, hx, clearComments_start 'd' _ _ (by simp only [isSpace]; decide) (by decide)]
      have hv : startsWith ('d' :: x) (str "version:") = false := by rw [startsWith]; simp [List.isPrefixOf]
      simp only [hv, Bool.false_eq_true, if_false]
      rw [← hx, splitLines, hfl]
      simp

end LdifR

/-- **C44.** A file of change records — in which every value is one the reader gets right (`Record.Good`) — makes exactly the calls
the records describe, one per record, in order, until one fails; however the lines are folded, however many empty lines separate
the records, with or without a version line. -/
theorem c44_applied_partial {σ ρ : Type} (env : Env) (version : Bool) (l : List (Record × Nat)) (hs : Separated l)
    (hg : ∀ rk ∈ l, rk.1.Good) (hsup : ∀ rk ∈ l, ∀ c ∈ rk.1.controls, Supported env c) (hne : version = true ∨ l ≠ []) (text : Str)
    (ht : FoldOf text (file version l)) :
    ∃ ops, MeansAll env (l.map Prod.fst) ops ∧
      ∀ (exec : σ → Op → σ × Except Err ρ) (st : σ), processLdif env exec st text = runOps exec st ops := by
  have hok := LdifR.file_ok version l hs hg
  have hu : unfold text = file version l := LdifR.unfold_fold _ _ ht
    (fun hm => by
      rcases hok.chars _ hm with h | h
      · exact absurd h (by decide)
      · revert h; decide) hok.cont
  have hops : ∃ ops, l.map (fun rk => readLines env rk.1.lines) = ops.map Except.ok ∧ MeansAll env (l.map Prod.fst) ops := by
    clear hs hne ht hok hu
    induction l with
    | nil => exact ⟨[], rfl, trivial⟩
    | cons rk l ih =>
      obtain ⟨ops, h1, h2⟩ := ih (fun x hx => hg x (by simp [hx])) (fun x hx => hsup x (by simp [hx]))
      obtain ⟨op, h3, h4⟩ := LdifR.record_ok env rk.1 (hg rk (by simp)) (hsup rk (by simp))
      exact ⟨op :: ops, by simp [h1, h3], h4, h2⟩
  obtain ⟨ops, h1, h2⟩ := hops
  refine ⟨ops, h2, fun exec st => ?_⟩
  simp only [processLdif, hu, LdifR.noUrl _ hok.url, Bool.false_eq_true, if_false, LdifR.version_ok version l hne hg]
  rw [LdifR.run_top env exec l _ hs (fun rk hrk => LdifR.record_lines_ok rk.1 (hg rk hrk)) h1 st, LdifR.runOuts_ok]

/-- **C44.** A control that is critical and not known stops the file at its record: the records before it are carried out, it and the
ones after it are not, and the error is `LDAPSupportError` (unless a call before it has failed). -/
theorem c44_unknown_critical {σ ρ : Type} (env : Env) (version : Bool) (l1 : List (Record × Nat)) (r : Record) (k : Nat)
    (l2 : List (Record × Nat)) (hs : Separated (l1 ++ (r, k) :: l2)) (hg : ∀ rk ∈ l1 ++ (r, k) :: l2, rk.1.Good)
    (hsup : ∀ rk ∈ l1, ∀ c ∈ rk.1.controls, Supported env c) (hun : ∃ c ∈ r.controls, ¬ Supported env c) (text : Str)
    (ht : FoldOf text (file version (l1 ++ (r, k) :: l2))) :
    ∃ ops, MeansAll env (l1.map Prod.fst) ops ∧ ∀ (exec : σ → Op → σ × Except Err ρ) (st : σ),
      (processLdif env exec st text).1 = (runOps exec st ops).1 ∧
      ∀ e, (processLdif env exec st text).2 = .error e ↔ ((runOps exec st ops).2 = .error e ∨ ((runOps exec st ops).2.isOk ∧ e = .ldapSupport)) := by
  have hok := LdifR.file_ok version _ hs hg
  have hu : unfold text = file version (l1 ++ (r, k) :: l2) := LdifR.unfold_fold _ _ ht
    (fun hm => by
      rcases hok.chars _ hm with h | h
      · exact absurd h (by decide)
      · revert h; decide) hok.cont
  have hops : ∃ ops, l1.map (fun rk => readLines env rk.1.lines) = ops.map Except.ok ∧ MeansAll env (l1.map Prod.fst) ops := by
    have hg1 : ∀ rk ∈ l1, rk.1.Good := fun x hx => hg x (by simp [hx])
    clear hs hg ht hok hu
    induction l1 with
    | nil => exact ⟨[], rfl, trivial⟩
    | cons rk l ih =>
      obtain ⟨ops, h1, h2⟩ := ih (fun x hx => hsup x (by simp [hx])) (fun x hx => hg1 x (by simp [hx]))
      obtain ⟨op, h3, h4⟩ := LdifR.record_ok env rk.1 (hg1 rk (by simp)) (hsup rk (by simp))
      exact ⟨op :: ops, by simp [h1, h3], h4, h2⟩
  obtain ⟨ops, h1, h2⟩ := hops
  have hr := LdifR.record_unknown env r (hg (r, k) (by simp)) hun
  refine ⟨ops, h2, fun exec st => ?_⟩
  have hrun : processLdif env exec st text =
      ((runOps exec st ops).1, match (runOps exec st ops).2 with | .error e' => .error e' | .ok _ => .error .ldapSupport) := by
    simp only [processLdif, hu, LdifR.noUrl _ hok.url, Bool.false_eq_true, if_false, LdifR.version_ok version _ (.inr (by simp)) hg]
    rw [LdifR.run_top env exec _ _ hs (fun rk hrk => LdifR.record_lines_ok rk.1 (hg rk hrk)) rfl st, List.map_append, List.map_cons, h1,
      hr, LdifR.runOuts_error]
  rw [hrun]
  refine ⟨rfl, fun e => ?_⟩
  cases (runOps exec st ops).2 with
  | error e' => simp [Except.isOk, Except.toBool]
  | ok x => simp [Except.isOk, Except.toBool, eq_comm]

/-- **C44.** Comment lines inside an `add` or `modify` record change nothing. -/
theorem c44_comments (comment : Str) (hc : startsWith (strip comment) ['#'] = true) :
    (∀ acc pre post, readAttrs acc (pre ++ comment :: post) = readAttrs acc (pre ++ post)) ∧
    (∀ cur vals acc pre post, readMods cur vals acc (pre ++ comment :: post) = readMods cur vals acc (pre ++ post)) := by
  constructor
  · intro acc pre post
    induction pre generalizing acc with
    | nil => rw [List.nil_append, readAttrs]; simp only [hc, if_true]; rfl
    | cons l pre ih =>
      rw [List.cons_append, List.cons_append, readAttrs, readAttrs]
      simp only [ih]
  · intro cur vals acc pre post
    induction pre generalizing cur vals acc with
    | nil => rw [List.nil_append, readMods.eq_def]; simp only [hc, if_true]; rfl
    | cons l pre ih =>
      rw [List.cons_append, List.cons_append, readMods.eq_def, readMods.eq_def cur vals acc (l :: (pre ++ post))]
      simp only [ih]

/-- **C44.** The dash after the last modification of a record may be left out: what is read with it is read without it. -/
theorem c44_last_dash (cur : Option (ModOp × Str)) (vals : List LVal) (acc : List (Mod LVal)) (lines : List Str) (ms : List (Mod LVal))
    (h : readMods cur vals acc (lines ++ [['-']]) = .ok ms) : readMods cur vals acc lines = .ok ms := by
  have hst : strip ['-'] = ['-'] := by decide
  have hnc : startsWith ['-'] ['#'] = false := by decide
  induction lines generalizing cur vals acc with
  | nil =>
    rw [List.nil_append, readMods.eq_def] at h
    simp only [hst, hnc, Bool.false_eq_true, if_false] at h
    cases cur with
    | none =>
      rw [show unpack2 ['-'] = .error .valueError by decide] at h
      cases h
    | some oa =>
      obtain ⟨op, attr⟩ := oa
      simp only [if_true] at h
      rw [readMods.eq_def]
      dsimp only
      cases hm : modlist op [(attr, .vals (.list vals))] with
      | error e => rw [hm] at h; cases h
      | ok ms' =>
        rw [hm] at h
        dsimp only at h ⊢
        rw [readMods.eq_def] at h
        exact h
  | cons l lines ih =>
    rw [List.cons_append, readMods.eq_def] at h
    rw [readMods.eq_def]
    dsimp only at h ⊢
    split at h
    · rename_i h1
      rw [if_pos h1]
      exact ih _ _ _ h
    · rename_i h1
      rw [if_neg h1]
      cases cur with
      | none =>
        dsimp only at h ⊢
        cases hu : unpack2 (strip l) with
        | error e => rw [hu] at h; cases h
        | ok oa =>
          rw [hu] at h
          dsimp only at h ⊢
          cases ho : modOpOf oa.1 with
          | error e => rw [ho] at h; cases h
          | ok op =>
            rw [ho] at h
            dsimp only at h ⊢
            exact ih _ _ _ h
      | some oa =>
        obtain ⟨op, attr⟩ := oa
        dsimp only at h ⊢
        split at h
        · rename_i h2
          rw [if_pos h2]
          cases hm : modlist op [(attr, .vals (.list vals))] with
          | error e => rw [hm] at h; cases h
          | ok ms' =>
            rw [hm] at h
            dsimp only at h ⊢
            exact ih _ _ _ h
        · rename_i h2
          rw [if_neg h2]
          split at h
          · rename_i h3
            rw [if_pos h3]
            cases hu : unpack2 (strip l) with
            | error e => rw [hu] at h; cases h
            | ok av =>
              rw [hu] at h
              dsimp only at h ⊢
              split at h
              · cases h
              · rename_i h4
                rw [if_neg h4]
                cases hr : readVal av.2 with
                | error e => rw [hr] at h; cases h
                | ok v =>
                  rw [hr] at h
                  dsimp only at h ⊢
                  exact ih _ _ _ h
          · cases h

/-- two modifications, the dash after the second left out -/
example : readMods none [] [] [str "delete: sn", str "-", str "add: cn", str "cn: x"] = .ok [⟨.delete, str "sn", .list []⟩, ⟨.add, str "cn", .list [.text (str "x")]⟩] :=
  c44_last_dash none [] [] [str "delete: sn", str "-", str "add: cn", str "cn: x"] _ (by decide +kernel)

namespace LdifR

theorem split_length (c : Char) (s : Str) : (pySplit c s).length = s.count c + 1 := by
  induction s with
  | nil => rfl
  | cons x t ih =>
    rw [pySplit]
    split
    · rename_i h; simp [h, ih]
    · rename_i h
      have hn := pySplit_ne_nil c t
      cases hs : pySplit c t with
      | nil => exact absurd hs hn
      | cons a b =>
        rw [hs] at ih
        rw [List.count_cons_of_ne h, ← ih]; rfl

theorem count_dropWhile (p : Char → Bool) (c : Char) (hp : p c = false) (s : Str) : (s.dropWhile p).count c = s.count c := by
  induction s with
  | nil => rfl
  | cons x t ih =>
    rw [List.dropWhile_cons]
    split
    · rename_i h
      have : x ≠ c := by rintro rfl; rw [hp] at h; cases h
      rw [ih, List.count_cons_of_ne this]
    · rfl

theorem count_strip (s : Str) : (strip s).count ':' = s.count ':' := by
  have h : inClass pySpace ':' = false := by decide
  rw [strip, pyStrip, List.count_reverse, count_dropWhile _ _ h, List.count_reverse, count_dropWhile _ _ h]

end LdifR

/-- **C44, finding.** In a `modify` record, a line for a value that contains a colon — a URL, a time, any base64 value (`attr:: …`) —
is refused, whatever the value. -/
theorem c44_colon (op : ModOp) (name : Str) (vals : List LVal) (acc : List (Mod LVal)) (line : Str) (rest : List Str)
    (h2 : 2 ≤ line.count ':') (hc : startsWith (strip line) ['#'] = false) :
    readMods (some (op, name)) vals acc (line :: rest) = .error .valueError := by
  have hu : unpack2 (strip line) = .error .valueError := by
    have hl := LdifR.split_length ':' (strip line)
    rw [LdifR.count_strip] at hl
    rw [unpack2]
    split
    · rename_i a b h; rw [h] at hl; simp at hl; omega
    · rfl
  have hd : strip line ≠ ['-'] := by
    intro e
    have := LdifR.count_strip line
    rw [e] at this
    have h0 : (['-'] : Str).count ':' = 0 := by decide
    omega
  rw [readMods]
  simp only [hc, Bool.false_eq_true, if_false, hd, hu]
  split <;> rfl

/-- a connection that carries out every call -/
def acceptAll : Unit → Op → Unit × Except Err Unit := fun _ _ => ((), .ok ())
/-- no controls are registered -/
def noControls : Env := ⟨false, fun _ => none⟩

/-- **C44, findings.** Records that are valid RFC 2849 and are not carried out as written. In order: a URL value in a `modify`
record; a base64 value in a `modify` record; an empty line after the version line; an empty value; a value containing `:<`; a
form feed inside a value; a control without a value. The next three are carried out wrongly: surrounding white space of a base64
value is lost; a line for another attribute (whose name begins the same) counts as a value; the value of a control, although
written in clear, is decoded as base64. -/
theorem c44_counterexamples :
    processLdif noControls acceptAll () (str "dn: cn=a,o=b\nchangetype: modify\nreplace: labeledURI\nlabeledURI: http://x\n-\n")
      = (([], ()), .error .valueError) ∧
    processLdif noControls acceptAll () (str "dn: cn=a,o=b\nchangetype: modify\nadd: sn\nsn:: w6k=\n-\n")
      = (([], ()), .error .valueError) ∧
    processLdif noControls acceptAll () (str "version: 1\n\ndn: cn=a,o=b\nchangetype: delete\n") = (([], ()), .error .valueError) ∧
    processLdif noControls acceptAll () (str "dn: cn=a,o=b\nchangetype: add\ncn: a\ndescription:\n") = (([], ()), .error .indexError) ∧
    processLdif noControls acceptAll () (str "dn: cn=a,o=b\nchangetype: add\ncn: a:<b\n") = (([], ()), .error .typeError) ∧
    processLdif noControls acceptAll () (str "dn: cn=a,o=b\nchangetype: add\ncn: a\x0cb\n") = (([], ()), .error .valueError) ∧
    processLdif noControls acceptAll () (str "dn: cn=a,o=b\ncontrol: 1.2.3 true\nchangetype: delete\n") = (([], ()), .error .valueError) ∧
    processLdif noControls acceptAll () (str "dn: cn=a,o=b\nchangetype: add\nsn:: IHg=\n")
      = (([.add (.text (str "cn=a,o=b")) [(str "sn", [.text (str "x")])] []], ()), .ok [()]) ∧
    processLdif noControls acceptAll () (str "dn: cn=a,o=b\nchangetype: modify\nreplace: c\ncn: x\n-\n")
      = (([.modify (.text (str "cn=a,o=b")) [⟨.replace, str "c", .list [.text (str "x")]⟩] []], ()), .ok [()]) ∧
    processLdif ⟨false, fun _ => some (str "kw")⟩ acceptAll () (str "dn: cn=a,o=b\ncontrol: 1.2.3: aaaa\nchangetype: delete\n")
      = (([.delete (.text (str "cn=a,o=b")) [(str "kw", ⟨.bin [0x69, 0xa6, 0x9a], none⟩)]], ()), .ok [()]) := by
  refine ⟨?_, ?_, ?_, ?_, ?_, ?_, ?_, ?_, ?_, ?_⟩ <;> decide +kernel

/-- **C44, finding.** A modification that deletes a whole attribute (`delete: attr` without values) is read, but the call it makes
sends nothing: `modify` ignores empty value lists by default. -/
theorem c44_delete_attribute :
    processLdif noControls acceptAll () (str "dn: cn=a,o=b\nchangetype: modify\ndelete: sn\n-\n")
      = (([.modify (.text (str "cn=a,o=b")) [⟨.delete, str "sn", .list []⟩] []], ()), .ok [()]) ∧
    (buildChanges ⟨false, true⟩ [(⟨.delete, str "sn", .list []⟩ : Mod LVal)]).2 = .ok [] := by
  refine ⟨?_, ?_⟩ <;> decide +kernel

/-- **C44, finding.** A comment line after the `dn:` line is skipped, after a `control:` line it is not. -/
theorem c44_comment_after_control :
    processLdif noControls acceptAll () (str "dn: cn=a,o=b\n# x\ncontrol: 1.2 false:: YQ==\nchangetype: delete\n")
      = (([.delete (.text (str "cn=a,o=b")) []], ()), .ok [()]) ∧
    processLdif noControls acceptAll () (str "dn: cn=a,o=b\ncontrol: 1.2 false:: YQ==\n# x\nchangetype: delete\n")
      = (([], ()), .error .valueError) := by
  refine ⟨?_, ?_⟩ <;> decide +kernel

/-- **C44, finding.** Records before a malformed one have been applied when the error is raised. -/
theorem c44_applied_before_error :
    processLdif noControls acceptAll () (str "dn: cn=a,o=b\nchangetype: delete\n\ndn: cn=b,o=b\nchangetype: nonsense\n")
      = (([.delete (.text (str "cn=a,o=b")) []], ()), .error .valueError) := by
  decide +kernel

/-- The records of `c44_applied_partial` exist, of every kind. -/
example : ∃ l : List (Record × Nat), Separated l ∧ (∀ rk ∈ l, rk.1.Good) ∧
    file true l = str "version: 1\ndn: cn=a\ncontrol: 1.2 true:: YQ==\nchangetype: add\nsn:: w6k=\ncn: a\nphoto:: /9g=\n\n\ndn: cn=a\nchangetype: modify\ndelete: sn\n-\nadd: sn\nsn: x\n-\n\ndn: cn=a\nchangetype: modrdn\nnewrdn: cn=b\ndeleteoldrdn: 1\n" := by
  have g : ∀ v b, ((∀ c, v.head? = some c → ¬ isSpace c) ∧ (∀ c, v.getLast? = some c → ¬ isSpace c) ∧
      (b = false → v ≠ [] ∧ (∀ c ∈ v, isBreak c = false ∧ c ≠ ':'))) → Item.Good ⟨v, b⟩ := by
    rintro v b ⟨h1, h2, h3⟩
    refine ⟨h1, h2, fun hb => ⟨(h3 hb).1, fun e => ?_, fun c hc => ((h3 hb).2 c hc).1, fun x y e => ?_⟩⟩
    · exact ((h3 hb).2 ':' (List.mem_of_mem_head? (by simpa using e))).2 rfl
    · exact ((h3 hb).2 ':' (by rw [show v = x ++ ':' :: '<' :: y from e]; simp)).2 rfl
  have n : ∀ a, (a ≠ [] ∧ a.head? ≠ some '#' ∧ ∀ c ∈ a, ¬ (inClass pySpace c = true) ∧ c ≠ ':' ∧ c ≠ ';') → GoodName a := fun a h => h
  have gdn : Item.Good ⟨str "cn=a", false⟩ := g _ _ (by refine ⟨?_, ?_, ?_⟩ <;> simp [isSpace] <;> decide)
  have gx : Item.Good ⟨str "x", false⟩ := g _ _ (by refine ⟨?_, ?_, ?_⟩ <;> simp [isSpace] <;> decide)
  have ga : Item.Good ⟨str "a", false⟩ := g _ _ (by refine ⟨?_, ?_, ?_⟩ <;> simp [isSpace] <;> decide)
  have ge : Item.Good ⟨str "é", true⟩ := g _ _ (by refine ⟨?_, ?_, ?_⟩ <;> simp [isSpace] <;> decide)
  have gb : Item.Good ⟨str "cn=b", false⟩ := g _ _ (by refine ⟨?_, ?_, ?_⟩ <;> simp [isSpace] <;> decide)
  have goid : ∀ c ∈ [(⟨str "1.2", some true, [97]⟩ : Ctl)], Rfc4517.numericoid c.oid := by
    intro c hc
    rw [List.mem_singleton.1 hc]
    exact ⟨str "1", str ".2", rfl, .inl ⟨'1', rfl, rfl⟩, [str ".2"], by simp, rfl, fun u hu => by
      rw [List.mem_singleton.1 hu]; exact ⟨str ".", str "2", rfl, rfl, .inl ⟨'2', rfl, rfl⟩⟩⟩
  have nsn : GoodName (str "sn") := n _ (by decide)
  have ncn : GoodName (str "cn") := n _ (by decide)
  refine ⟨[(⟨⟨str "cn=a", false⟩, [⟨str "1.2", some true, [97]⟩], .add [(str "sn", .text ⟨str "é", true⟩), (str "cn", .text ⟨str "a", false⟩), (str "photo", .octets [255, 216])]⟩, 3),
    (⟨⟨str "cn=a", false⟩, [], .modify [⟨.delete, str "sn", []⟩, ⟨.add, str "sn", [⟨str "x", false⟩]⟩]⟩, 2),
    (⟨⟨str "cn=a", false⟩, [], .rename false ⟨str "cn=b", false⟩ true none⟩, 1)], ⟨by omega, by omega, trivial⟩, ?_, by decide +kernel⟩
  intro rk hrk
  simp only [List.mem_cons, List.not_mem_nil, or_false] at hrk
  rcases hrk with rfl | rfl | rfl
  · refine ⟨gdn, goid, ?_⟩
    intro ai hai
    simp only [List.mem_cons, List.not_mem_nil, or_false] at hai
    rcases hai with rfl | rfl | rfl
    · exact ⟨nsn, ge⟩
    · exact ⟨ncn, ga⟩
    · refine ⟨n _ (by decide), (fun s hs => by rw [show Codec.utf8Dec [255, 216] = none by decide +kernel] at hs; cases hs), fun _ x hx => ?_⟩
      rcases hx with hx | hx <;> cases hx <;> decide
  · refine ⟨gdn, by simp, ?_⟩
    intro m hm
    simp only [List.mem_cons, List.not_mem_nil, or_false] at hm
    rcases hm with rfl | rfl
    · exact ⟨nsn, by simp, by simp⟩
    · refine ⟨nsn, by simp, ?_⟩
      intro i hi
      rw [List.mem_singleton] at hi
      subst hi
      exact ⟨gx, rfl, by decide⟩
  · exact ⟨gdn, by simp, gb, by simp⟩

/-! ### C43 through the program's own reader -/

/-- values that survive: no white space at the ends, no line boundary, no `:<` -/
def Surviving (v : Str) : Prop :=
  (∀ c, v.head? = some c → ¬ isSpace c) ∧ (∀ c, v.getLast? = some c → ¬ isSpace c) ∧ (∀ c ∈ v, isBreak c = false) ∧
  ∀ a b, v ≠ a ++ ':' :: '<' :: b

/-- the same for the values of an object, which may be octets: those that are not UTF-8 have no blank at the ends -/
def SurvivingValue : LVal → Prop
  | .text s => Surviving s
  | .bin b => (∀ s, Codec.utf8Dec b = some s → Surviving s) ∧ (Codec.utf8Dec b = none → ∀ x, b.head? = some x ∨ b.getLast? = some x → x ≠ 32 ∧ (x.toNat < 9 ∨ 13 < x.toNat))

/-- a value and its octets: octets that are UTF-8 become text -/
def sameValue : LVal → LVal
  | .text s => .text s
  | .bin b => valueOf b

namespace LdifR

theorem foldOf_refl (s : Str) : FoldOf s s := by
  induction s with
  | nil => exact .nil
  | cons c s ih => exact .char c ih

theorem foldOf_append (a b c d : Str) (h : FoldOf a b) (h' : FoldOf c d) : FoldOf (a ++ c) (b ++ d) := by
  induction h with
  | nil => exact h'
  | char c _ ih => exact .char c ih
  | fold _ ih => exact .fold ih

theorem foldOf_join (l : List Str) : FoldOf (pyJoin (str "\n ") l) l.flatten := by
  induction l with
  | nil => exact .nil
  | cons x l ih =>
    cases l with
    | nil => simpa [pyJoin] using foldOf_refl x
    | cons y l =>
      rw [pyJoin_cons _ _ _ (by simp), List.append_assoc, List.flatten_cons]
      exact foldOf_append _ _ _ _ (foldOf_refl x) (.fold ih)

theorem foldOf_line (line : Str) : FoldOf (foldLine line) line := by
  unfold foldLine
  split
  · have h := foldOf_append _ _ _ _ (foldOf_refl (line.take 76)) (.fold (foldOf_join (chunks75 line.length (line.drop 76))))
    rw [LdifP.chunks_flatten _ _ (by simp), List.take_append_drop] at h
    simpa using h
  · exact foldOf_refl line

/-- the choice `format_ldif` makes for a value -/
def itemOf (v : Str) : Item := ⟨v, !(reClear.anchored v && !endsWith v [' '])⟩

theorem item_spec (v : Str) : (itemOf v).spec = encodeValue v := by
  unfold Item.spec itemOf encodeValue b64ascii
  cases h1 : reClear.anchored v <;> cases h2 : endsWith v [' '] <;> simp

theorem item_good (v : Str) (h : Surviving v) : (itemOf v).Good := by
  obtain ⟨h1, h2, h3, h4⟩ := h
  refine ⟨h1, h2, fun hb => ?_⟩
  have hcl : reClear.anchored v = true := by
    cases hc : reClear.anchored v with
    | true => rfl
    | false => simp [itemOf, hc] at hb
  have key : v ≠ [] ∧ SafeString v := by
    rcases (LdifP.clear_iff v).1 hcl with h | ⟨w, rfl, -, -⟩
    · exact h
    · exact absurd (show isSpace '\n' by simp only [isSpace]; decide) (h2 '\n' (by simp))
  exact ⟨key.1, fun e => (key.2.2 _ e).2.2.1 rfl, h3, h4⟩

/-- the choice for any value -/
def datumOf : LVal → Datum
  | .text s => .text (itemOf s)
  | .bin b =>
    match Codec.utf8Dec b with
    | some s => .text (itemOf s)
    | none => .octets b

theorem datum_spec (a : Str) (v : LVal) : a ++ ':' :: (datumOf v).spec = attrLine a v := by
  cases v with
  | text s => simp only [datumOf, Datum.spec, item_spec, attrLine]
  | bin b =>
    cases hu : Codec.utf8Dec b with
    | some s => simp only [datumOf, attrLine, hu, Datum.spec, item_spec]
    | none => simp [datumOf, attrLine, hu, Datum.spec]

theorem datum_good (v : LVal) (h : SurvivingValue v) : (datumOf v).Good ∧ (datumOf v).value = sameValue v := by
  cases v with
  | text s => exact ⟨item_good s h, rfl⟩
  | bin b =>
    cases hu : Codec.utf8Dec b with
    | some s =>
      simp only [datumOf, sameValue, valueOf, hu]
      exact ⟨item_good s (h.1 s hu), rfl⟩
    | none =>
      simp only [datumOf, sameValue, valueOf, hu, Datum.value, and_true]
      refine ⟨fun s hs => ?_, h.2⟩
      rw [hu] at hs
      cases hs

theorem fold_lines (attrs : List (Str × LVal)) :
    FoldOf (attrs.flatMap (fun av => foldLine (attrLine av.1 av.2) ++ ['\n']))
      (attrs.flatMap (fun av => (av.1 ++ ':' :: (datumOf av.2).spec) ++ ['\n'])) := by
  induction attrs with
  | nil => exact .nil
  | cons av attrs ih =>
    simp only [List.flatMap_cons]
    refine foldOf_append _ _ _ _ (foldOf_append _ _ _ _ ?_ (foldOf_refl _)) ih
    rw [datum_spec]
    exact foldOf_line _

theorem join_newlines (x : Str) (ls : List Str) : pyJoin ['\n'] (x :: ls) ++ ['\n'] = x ++ '\n' :: ls.flatMap (· ++ ['\n']) := by
  induction ls generalizing x with
  | nil => simp [pyJoin]
  | cons y ls ih =>
    rw [pyJoin_cons _ _ _ (by simp), List.append_assoc, ih y]
    simp

end LdifR

/-- **C43.** What `format_ldif` writes for an object's values, put under `changetype: add`, is read back by `process_ldif` as one call
that adds exactly these values — for the values of `Surviving`. -/
theorem c43_read_back_partial {σ ρ : Type} (env : Env) (dn : Str) (attrs : List (Str × LVal)) (hd : Surviving dn)
    (hn : ∀ av ∈ attrs, GoodName av.1) (hv : ∀ av ∈ attrs, SurvivingValue av.2) :
    ∃ d : PDict Str (List LVal), (d.map Prod.fst).Nodup ∧ (∀ kv ∈ d, kv.2 ≠ []) ∧ (∀ a, (d.get? a).getD [] = (attrs.filter (fun av => av.1 = a)).map (fun av => sameValue av.2)) ∧
      ∀ (exec : σ → Op → σ × Except Err ρ) (st : σ),
        processLdif env exec st (dnLine dn ++ str "\nchangetype: add\n" ++
          attrs.flatMap (fun av => foldLine (attrLine av.1 av.2) ++ ['\n'])) = runOps exec st [.add (.text dn) d []] := by
  let r : Record := ⟨LdifR.itemOf dn, [], .add (attrs.map (fun av => (av.1, LdifR.datumOf av.2)))⟩
  have hr : r.Good := by
    refine ⟨LdifR.item_good dn hd, by simp [r], ?_⟩
    intro ai hai
    obtain ⟨av, hm, rfl⟩ := List.mem_map.1 hai
    exact ⟨hn av hm, (LdifR.datum_good _ (hv av hm)).1⟩
  have hfile : file false [(r, 1)] = dnLine dn ++ str "\nchangetype: add\n" ++
      attrs.flatMap (fun av => (av.1 ++ ':' :: (LdifR.datumOf av.2).spec) ++ ['\n']) := by
    have e : file false [(r, 1)] = pyJoin ['\n'] r.lines ++ ['\n'] := by simp [file, body]
    rw [e, Record.lines, LdifR.join_newlines, show r.dn = LdifR.itemOf dn from rfl, LdifR.item_spec]
    simp only [r, Change.lines, List.map_nil, List.nil_append, List.map_map, List.flatMap_cons, List.flatMap_map, dnLine]
    simp
  obtain ⟨ops, h1, h2⟩ := c44_applied_partial (σ := σ) (ρ := ρ) env false [(r, 1)] trivial
    (by intro rk hrk; rw [List.mem_singleton.1 hrk]; exact hr) (by intro rk hrk; rw [List.mem_singleton.1 hrk]; simp [r]) (.inr (by simp))
    (dnLine dn ++ str "\nchangetype: add\n" ++ attrs.flatMap (fun av => foldLine (attrLine av.1 av.2) ++ ['\n']))
    (by
      rw [hfile]
      exact LdifR.foldOf_append _ _ _ _ (LdifR.foldOf_refl _) (LdifR.fold_lines attrs))
  cases ops with
  | nil => exact absurd h1 (by simp [MeansAll])
  | cons op ops =>
    cases ops with
    | cons _ _ => exact absurd h1 (by simp [MeansAll])
    | nil =>
      have hm : Means env r op := h1.1
      cases op with
      | add dn' d ctrls =>
        simp only [Means, r] at hm
        obtain ⟨rfl, hcm, hd0, hd1, hd2⟩ := hm
        have : ctrls = [] := by
          cases ctrls with
          | nil => rfl
          | cons x xs =>
            have := hcm.2 x.1
            simp [PDict.get?] at this
        subst this
        refine ⟨d, hd0, hd1, fun a => ?_, fun exec st => h2 exec st⟩
        rw [hd2 a, List.filter_map, List.map_map]
        refine List.map_congr_left (fun av hav => ?_)
        exact (LdifR.datum_good _ (hv av (List.mem_filter.1 hav).1)).2
      | delete _ _ => simp [Means, r] at hm
      | modify _ _ _ => simp [Means, r] at hm
      | modDn _ _ _ _ _ => simp [Means, r] at hm

/-- **C43, findings.** Values that do not survive the program's own reader: a leading space (decoded, then stripped), and a form feed
written in clear. -/
theorem c43_read_back_counterexamples :
    processLdif noControls acceptAll () (dnLine (str "cn=a") ++ str "\nchangetype: add\n" ++ foldLine (attrLine (str "sn") (.text (str " x"))))
      = (([.add (.text (str "cn=a")) [(str "sn", [.text (str "x")])] []], ()), .ok [()]) ∧
    processLdif noControls acceptAll () (dnLine (str "cn=a") ++ str "\nchangetype: add\n" ++ foldLine (attrLine (str "sn") (.text (str "x\x0cy"))))
      = (([], ()), .error .valueError) := by
  refine ⟨?_, ?_⟩ <;> decide +kernel

end Laurelin.Props
