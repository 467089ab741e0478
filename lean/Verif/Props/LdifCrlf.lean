import Verif.Props.LdifRead
/-!
C44: line ends. A file with `\r\n` line ends is read as the same file with `\n` line ends.
-/
namespace Laurelin.Props
open Laurelin Laurelin.Ldif Laurelin.Spec Laurelin.Spec.Ldif

/-- the same text with `\r\n` at the end of each line -/
def crlf (t : Str) : Str := t.flatMap (fun c => if c = '\n' then ['\r', '\n'] else [c])

namespace LdifC
open LdifR

theorem crlf_cons (c : Char) (t : Str) : crlf (c :: t) = (if c = '\n' then ['\r', '\n'] else [c]) ++ crlf t := by
  rw [crlf, List.flatMap_cons]; rfl

theorem crlf_nl (t : Str) : crlf ('\n' :: t) = '\r' :: '\n' :: crlf t := by rw [crlf_cons]; rfl

theorem crlf_ne (c : Char) (t : Str) (h : c ≠ '\n') : crlf (c :: t) = c :: crlf t := by rw [crlf_cons, if_neg h]; rfl

theorem crlf_append (a b : Str) : crlf (a ++ b) = crlf a ++ crlf b := by rw [crlf, List.flatMap_append]; rfl

theorem crlf_nil_iff (a : Str) : crlf a = [] ↔ a = [] := by
  cases a with
  | nil => simp [crlf]
  | cons c t => rw [crlf_cons]; split <;> simp

theorem crlf_flatten (l : List Str) : (l.map crlf).flatten = crlf l.flatten := by
  induction l with
  | nil => rfl
  | cons x l ih => rw [List.map_cons, List.flatten_cons, List.flatten_cons, crlf_append, ih]

theorem crlf_clean (a : Str) (h : '\n' ∉ a) : crlf a = a := by
  induction a with
  | nil => rfl
  | cons c t ih => rw [crlf_ne c t (by rintro rfl; simp at h), ih (fun e => h (by simp [e]))]

/-! unfolding -/

theorem unfold_crlf (t : Str) (hr : '\r' ∉ t) : unfold (crlf t) = crlf (unfold t) := by
  induction h : t.length using Nat.strongRecOn generalizing t with
  | ind n ih =>
    have ih : ∀ s : Str, s.length < t.length → '\r' ∉ s → unfold (crlf s) = crlf (unfold s) := fun s hs hrs =>
      ih s.length (by omega) s hrs rfl
    cases t with
    | nil => rfl
    | cons a t1 =>
      have hr1 : '\r' ∉ t1 := fun e => hr (by simp [e])
      by_cases ha : a = '\n'
      · subst ha
        cases t1 with
        | nil => decide
        | cons b t2 =>
          by_cases hb : b = ' '
          · subst hb
            rw [crlf_nl, crlf_ne _ _ (by decide), unfold.eq_def, unfold.eq_def ('\n' :: ' ' :: t2)]
            have : ¬ ('\r' = '\n') := by decide
            simp only [this, if_false, if_true]
            exact ih t2 (by simp; omega) (fun e => hr1 (by simp [e]))
          · rw [crlf_nl, unfold.eq_def ('\n' :: b :: t2)]
            simp only [if_true, hb, if_false]
            rw [crlf_nl, ← ih (b :: t2) (by simp) hr1]
            have hhead : ∃ c u, crlf (b :: t2) = c :: u ∧ c ≠ ' ' := by
              rw [crlf_cons]
              split
              · exact ⟨'\r', '\n' :: crlf t2, rfl, by decide⟩
              · exact ⟨b, crlf t2, rfl, hb⟩
            obtain ⟨c, u, e, hc⟩ := hhead
            rw [e, unfold.eq_def]
            have : ¬ ('\r' = '\n') := by decide
            simp only [this, if_false, if_true, hc]
      · have har : a ≠ '\r' := by rintro rfl; simp at hr
        rw [crlf_ne a t1 ha, unfold.eq_def, unfold.eq_def (a :: t1)]
        simp only [ha, har, if_false]
        rw [crlf_ne a _ ha, ih t1 (by simp) hr1]

theorem unfold_mem (t : Str) (c : Char) (h : c ∈ unfold t) : c ∈ t := by
  induction hn : t.length using Nat.strongRecOn generalizing t with
  | ind n ih =>
    have ih : ∀ s : Str, s.length < t.length → c ∈ unfold s → c ∈ s := fun s hs hrs => ih s.length (by omega) s hrs rfl
    cases t with
    | nil => exact h
    | cons a t1 =>
      rw [unfold.eq_def] at h
      dsimp only at h
      split at h
      · cases t1 with
        | nil => simpa using h
        | cons b t2 =>
          dsimp only at h
          split at h
          · have := ih t2 (by simp; omega) h; simp [this]
          · rcases List.mem_cons.1 h with rfl | h
            · simp
            · exact List.mem_cons_of_mem _ (ih _ (by simp) h)
      · split at h
        · cases t1 with
          | nil => simpa using h
          | cons b t2 =>
            dsimp only at h
            split at h
            · cases t2 with
              | nil => simpa using h
              | cons d t3 =>
                dsimp only at h
                split at h
                · have := ih t3 (by simp; omega) h; simp [this]
                · rcases List.mem_cons.1 h with rfl | h
                  · simp
                  · rcases List.mem_cons.1 h with rfl | h
                    · simp
                    · have := ih (d :: t3) (by simp) h
                      exact List.mem_cons_of_mem _ (List.mem_cons_of_mem _ this)
            · rcases List.mem_cons.1 h with rfl | h
              · simp
              · exact List.mem_cons_of_mem _ (ih _ (by simp) h)
        · rcases List.mem_cons.1 h with rfl | h
          · simp
          · exact List.mem_cons_of_mem _ (ih _ (by simp) h)

/-! URLs -/

theorem noPair_crlf (s : Str) (h : NoPair ':' '<' s) : NoPair ':' '<' (crlf s) := by
  induction s with
  | nil => exact h
  | cons c t ih =>
    have ht : NoPair ':' '<' t := fun a b e => h (c :: a) b (by rw [e]; rfl)
    rw [crlf_cons]
    refine noPair_append _ _ _ _ ?_ (ih ht) ?_
    · split
      · intro a b e
        have : '<' ∈ (['\r', '\n'] : Str) := by rw [e]; simp
        revert this; decide
      · exact noPair_single _ _ _
    · intro h1 h2
      split at h1
      · simp at h1
      · simp only [List.getLast?_singleton, Option.some.injEq] at h1
        subst h1
        cases t with
        | nil => simp [crlf] at h2
        | cons d u =>
          rw [crlf_cons] at h2
          split at h2
          · simp at h2
          · simp only [List.cons_append, List.head?_cons, Option.some.injEq] at h2
            subst h2
            exact h [] u rfl

/-! lines -/

theorem go_keep (s cur : Str) (hr : '\r' ∉ s) : splitLinesGo true (crlf cur) (crlf s) = (splitLinesGo true cur s).map crlf := by
  induction s generalizing cur with
  | nil =>
    rw [show crlf [] = [] from rfl, splitLinesGo, splitLinesGo]
    by_cases h : cur = []
    · subst h; rfl
    · rw [if_neg h, if_neg (fun e => h ((crlf_nil_iff cur).1 e))]; rfl
  | cons a t ih =>
    have hrt : '\r' ∉ t := fun e => hr (by simp [e])
    have har : a ≠ '\r' := by rintro rfl; simp at hr
    by_cases ha : a = '\n'
    · subst ha
      rw [crlf_nl, go_newline, splitLinesGo.eq_def]
      simp only [if_true]
      have := ih [] hrt
      rw [show crlf [] = [] from rfl] at this
      rw [this, List.map_cons, crlf_append]
      rfl
    · rw [crlf_ne a t ha, splitLinesGo.eq_def, splitLinesGo.eq_def true cur (a :: t)]
      have e : crlf cur ++ [a] = crlf (cur ++ [a]) := by rw [crlf_append, crlf_ne a [] ha]; rfl
      simp only [har, if_false, if_true]
      split
      · rw [List.map_cons, ← e]
        have := ih [] hrt
        rw [show crlf [] = [] from rfl] at this
        rw [this]
      · rw [e, ih _ hrt]

theorem go_drop (s cur : Str) (hr : '\r' ∉ s) : splitLinesGo false cur (crlf s) = splitLinesGo false cur s := by
  induction s generalizing cur with
  | nil => rfl
  | cons a t ih =>
    have hrt : '\r' ∉ t := fun e => hr (by simp [e])
    have har : a ≠ '\r' := by rintro rfl; simp at hr
    by_cases ha : a = '\n'
    · subst ha
      rw [crlf_nl, go_newline, splitLinesGo.eq_def]
      simp only [if_true]
      rw [ih [] hrt]
      rfl
    · rw [crlf_ne a t ha, splitLinesGo.eq_def, splitLinesGo.eq_def false cur (a :: t)]
      simp only [har, if_false]
      rw [ih _ hrt, ih _ hrt]

/-! white space -/

theorem drop_crlf (s : Str) : (crlf s).dropWhile (inClass pySpace) = crlf (s.dropWhile (inClass pySpace)) := by
  induction s with
  | nil => rfl
  | cons a t ih =>
    by_cases ha : a = '\n'
    · subst ha
      have h1 : inClass pySpace '\n' = true := by decide
      have h2 : inClass pySpace '\r' = true := by decide
      rw [crlf_nl, List.dropWhile_cons, if_pos h2, List.dropWhile_cons, if_pos h1, List.dropWhile_cons, if_pos h1, ih]
    · rw [crlf_ne a t ha, List.dropWhile_cons, List.dropWhile_cons]
      split
      · exact ih
      · rw [crlf_ne a t ha]

theorem drop_crlf_rev (s : Str) : (crlf s).reverse.dropWhile (inClass pySpace) = (crlf (s.reverse.dropWhile (inClass pySpace)).reverse).reverse := by
  have key : ∀ u : Str, (crlf u.reverse).reverse.dropWhile (inClass pySpace) =
      (crlf (u.dropWhile (inClass pySpace)).reverse).reverse := by
    intro u
    induction u with
    | nil => rfl
    | cons a t ih =>
      rw [List.reverse_cons, crlf_append, List.reverse_append]
      by_cases ha : a = '\n'
      · subst ha
        have h1 : inClass pySpace '\n' = true := by decide
        have h2 : inClass pySpace '\r' = true := by decide
        rw [show (crlf ['\n']).reverse = ['\n', '\r'] from rfl, List.cons_append, List.cons_append, List.nil_append,
          List.dropWhile_cons, if_pos h1, List.dropWhile_cons, if_pos h2, List.dropWhile_cons, if_pos h1, ih]
      · rw [crlf_ne a [] ha]
        rw [show (a :: crlf [] : Str).reverse = [a] from rfl, List.singleton_append, List.dropWhile_cons, List.dropWhile_cons]
        split
        · exact ih
        · rw [List.reverse_cons, crlf_append, List.reverse_append, crlf_ne a [] ha]; rfl
  have := key s.reverse
  rwa [List.reverse_reverse] at this

theorem strip_crlf (s : Str) : strip (crlf s) = crlf (strip s) := by
  rw [strip, strip, pyStrip, pyStrip, drop_crlf, drop_crlf_rev, List.reverse_reverse]

theorem starts_crlf (p s : Str) (h1 : '\n' ∉ p) (h2 : '\r' ∉ p) : startsWith (crlf s) p = startsWith s p := by
  rw [startsWith, startsWith]
  induction p generalizing s with
  | nil => simp [List.isPrefixOf]
  | cons x p ih =>
    cases s with
    | nil => rfl
    | cons a t =>
      have hn : x ≠ '\n' := by rintro rfl; simp at h1
      have hr : x ≠ '\r' := by rintro rfl; simp at h2
      by_cases ha : a = '\n'
      · subst ha
        rw [crlf_nl]
        simp only [List.isPrefixOf, beq_eq_false_iff_ne.2 hn, beq_eq_false_iff_ne.2 hr, Bool.false_and]
      · rw [crlf_ne a t ha]
        simp only [List.isPrefixOf]
        rw [ih t (fun e => h1 (by simp [e])) (fun e => h2 (by simp [e]))]

theorem clear_crlf (ls : List Str) : clearComments (ls.map crlf) = (clearComments ls).map crlf := by
  induction ls with
  | nil => rfl
  | cons l ls ih =>
    rw [List.map_cons, clearComments, clearComments, strip_crlf, starts_crlf _ _ (by decide) (by decide)]
    split
    · exact ih
    · rfl

theorem crlf_eq_clean (s p : Str) (h1 : '\n' ∉ p) : crlf s = p ↔ s = p := by
  constructor
  · intro h
    by_cases hn : '\n' ∈ s
    · exfalso
      apply h1
      rw [← h, crlf, List.mem_flatMap]
      exact ⟨'\n', hn, by simp⟩
    · rw [← h, crlf_clean s hn]
  · rintro rfl; exact crlf_clean s h1

theorem version_crlf (s : Str) (hr : '\r' ∉ s) :
    versionRest (crlf s) = match versionRest s with | .error e => .error e | .ok t => .ok (crlf t) := by
  rw [versionRest, versionRest, splitLines, splitLines]
  have := go_keep s [] hr
  rw [show crlf [] = [] from rfl] at this
  rw [this, clear_crlf]
  cases clearComments (splitLinesGo true [] s) with
  | nil => rfl
  | cons l rest =>
    simp only [List.map_cons]
    rw [starts_crlf _ _ (by decide) (by decide)]
    by_cases hv : startsWith l (str "version:") = true
    · rw [if_pos hv, if_pos hv]
      have hd : (crlf l).drop 8 = crlf (l.drop 8) := by
        rw [startsWith, List.isPrefixOf_iff_prefix] at hv
        obtain ⟨u, rfl⟩ := hv
        rw [crlf_append]
        rfl
      rw [hd, strip_crlf]
      have := crlf_eq_clean (strip (l.drop 8)) (str "1") (by decide)
      by_cases h1 : strip (l.drop 8) = str "1"
      · rw [if_neg (by simp [this.2 h1]), if_neg (by simp [h1])]
        simp only [crlf_flatten]
      · rw [if_pos (fun e => h1 (this.1 e)), if_pos h1]
    · rw [if_neg hv, if_neg hv]
      simp only [← List.map_cons, crlf_flatten]

theorem version_mem (s t : Str) (h : versionRest s = .ok t) : ∀ c ∈ t, c ∈ s := by
  have hsuf : ∀ ls : List Str, ∀ x ∈ clearComments ls, x ∈ ls := by
    intro ls
    induction ls with
    | nil => intro x hx; exact hx
    | cons l ls ih =>
      intro x hx
      rw [clearComments] at hx
      split at hx
      · exact List.mem_cons_of_mem _ (ih x hx)
      · exact hx
  have hf := go_flatten [] s
  have hall : ∀ ls : List Str, (∀ x ∈ ls, x ∈ clearComments (splitLines true s)) → ∀ c ∈ ls.flatten, c ∈ s := by
    intro ls hls c hc
    obtain ⟨x, hx, hcx⟩ := List.mem_flatten.1 hc
    have h1 := hsuf _ x (hls x hx)
    have : c ∈ (splitLinesGo true [] s).flatten := List.mem_flatten.2 ⟨x, h1, hcx⟩
    rw [hf] at this
    simpa using this
  rw [versionRest] at h
  cases hc : clearComments (splitLines true s) with
  | nil => rw [hc] at h; cases h
  | cons l rest =>
    rw [hc] at h hall
    simp only [] at h
    split at h
    · split at h
      · cases h
      · injection h with h; subst h
        exact hall rest (fun x hx => by simp [hx])
    · injection h with h; subst h
      exact hall (l :: rest) (fun x hx => hx)

/-! records -/

theorem records_crlf (s cur : Str) (pend : List Str) (hr : '\r' ∉ s) :
    splitRecords (crlf cur) (pend.map crlf) (crlf s) = (splitRecords cur pend s).map crlf := by
  induction s generalizing cur pend with
  | nil =>
    rw [show crlf [] = [] from rfl, splitRecords, splitRecords, List.length_map]
    split
    · rfl
    · rw [List.map_singleton, crlf_append, crlf_flatten]
  | cons a t ih =>
    have hrt : '\r' ∉ t := fun e => hr (by simp [e])
    have har : a ≠ '\r' := by rintro rfl; simp at hr
    by_cases ha : a = '\n'
    · subst ha
      rw [crlf_nl, splitRecords.eq_def, splitRecords.eq_def cur pend ('\n' :: t)]
      have : ¬ ('\r' = '\n') := by decide
      simp only [this, if_false, if_true]
      rw [← ih cur (pend ++ [['\n']]) hrt, List.map_append]
      rfl
    · rw [crlf_ne a t ha, splitRecords.eq_def, splitRecords.eq_def cur pend (a :: t)]
      simp only [ha, har, if_false, List.length_map]
      split
      · have := ih [a] [] hrt
        rw [crlf_ne a [] ha] at this
        rw [List.map_cons, ← this]
        rfl
      · rw [← ih _ [] hrt, crlf_append, crlf_append, crlf_ne a [] ha, crlf_flatten]
        rfl

theorem records_mem (s cur : Str) (pend : List Str) (x : Char) (hr : x ∉ s) (hc : x ∉ cur) (hp : ∀ q ∈ pend, x ∉ q) :
    ∀ r ∈ splitRecords cur pend s, x ∉ r := by
  have hpf : x ∉ pend.flatten := by
    intro h
    obtain ⟨q, hq, hx⟩ := List.mem_flatten.1 h
    exact hp q hq hx
  induction h : s.length using Nat.strongRecOn generalizing s cur pend with
  | ind n ih =>
    have ih : ∀ (s' cur' : Str) (pend' : List Str), s'.length < s.length → x ∉ s' → x ∉ cur' → (∀ q ∈ pend', x ∉ q) →
        ∀ r ∈ splitRecords cur' pend' s', x ∉ r := by
      intro s' cur' pend' hl h1 h2 h3
      refine ih s'.length (by omega) s' cur' pend' h1 h2 h3 (fun h => ?_) rfl
      obtain ⟨q, hq, hx⟩ := List.mem_flatten.1 h
      exact h3 q hq hx
    intro r hrm
    rw [splitRecords.eq_def] at hrm
    cases s with
    | nil =>
      simp only [] at hrm
      split at hrm
      · simp only [List.mem_cons, List.not_mem_nil, or_false] at hrm
        rcases hrm with rfl | rfl
        · exact hc
        · simp
      · rw [List.mem_singleton.1 hrm]
        simp only [List.mem_append, not_or]; exact ⟨hc, hpf⟩
    | cons a t =>
      have hxa : x ≠ a := by rintro rfl; simp at hr
      have hxt : x ∉ t := fun e => hr (by simp [e])
      simp only [] at hrm
      split at hrm
      · exact ih t cur _ (by simp) hxt hc (by
          intro q hq
          rcases List.mem_append.1 hq with hq | hq
          · exact hp q hq
          · rw [List.mem_singleton.1 hq]; simpa using hxa) r hrm
      · split at hrm
        · cases t with
          | nil =>
            simp only [] at hrm
            split at hrm
            · simp only [List.mem_cons, List.not_mem_nil, or_false] at hrm
              rcases hrm with rfl | rfl
              · exact hc
              · simpa using hxa
            · rw [List.mem_singleton.1 hrm]
              simp only [List.mem_append, not_or, List.mem_singleton]
              exact ⟨⟨hc, hpf⟩, hxa⟩
          | cons b t2 =>
            have hxb : x ≠ b := by rintro rfl; simp at hxt
            simp only [] at hrm
            split at hrm
            · exact ih t2 cur _ (by simp; omega) (fun e => hxt (by simp [e])) hc (by
                intro q hq
                rcases List.mem_append.1 hq with hq | hq
                · exact hp q hq
                · rw [List.mem_singleton.1 hq]; simp [hxa, hxb]) r hrm
            · split at hrm
              · rcases List.mem_cons.1 hrm with rfl | hrm
                · exact hc
                · exact ih (b :: t2) [a] [] (by simp) hxt (by simpa using hxa) (by simp) r hrm
              · exact ih (b :: t2) _ [] (by simp) hxt (by
                  simp only [List.mem_append, not_or, List.mem_singleton]; exact ⟨⟨hc, hpf⟩, hxa⟩) (by simp) r hrm
        · split at hrm
          · rcases List.mem_cons.1 hrm with rfl | hrm
            · exact hc
            · exact ih t [a] [] (by simp) hxt (by simpa using hxa) (by simp) r hrm
          · exact ih t _ [] (by simp) hxt (by
              simp only [List.mem_append, not_or, List.mem_singleton]; exact ⟨⟨hc, hpf⟩, hxa⟩) (by simp) r hrm

theorem run_crlf {σ ρ : Type} (env : Env) (exec : σ → Op → σ × Except Err ρ) (rs : List Str) (h : ∀ r ∈ rs, '\r' ∉ r) (st : σ) :
    runRecords env exec st (rs.map crlf) = runRecords env exec st rs := by
  induction rs generalizing st with
  | nil => rfl
  | cons r rs ih =>
    have ih := ih (fun x hx => h x (by simp [hx]))
    rw [List.map_cons, runRecords, runRecords]
    by_cases hr : r = []
    · rw [if_pos hr, if_pos ((crlf_nil_iff r).2 hr), ih]
    · rw [if_neg hr, if_neg (fun e => hr ((crlf_nil_iff r).1 e)), splitLines, splitLines, go_drop _ _ (h r (by simp))]
      simp only [ih]

end LdifC

/-- **C44.** Whether the lines of a text end in `\n` or `\r\n` makes no difference: the same calls, the same outcome. (For texts in which,
once the folded lines are joined, no `:<` occurs.) -/
theorem c44_crlf {σ ρ : Type} (env : Env) (exec : σ → Op → σ × Except Err ρ) (st : σ) (text : Str) (hr : '\r' ∉ text)
    (hu : ∀ a b, unfold text ≠ a ++ ':' :: '<' :: b) : processLdif env exec st (crlf text) = processLdif env exec st text := by
  have hr2 : '\r' ∉ unfold text := fun h => hr (LdifC.unfold_mem _ _ h)
  simp only [processLdif]
  rw [LdifC.unfold_crlf _ hr, LdifR.noUrl _ hu, LdifR.noUrl _ (LdifC.noPair_crlf _ hu), LdifC.version_crlf _ hr2]
  cases hv : versionRest (unfold text) with
  | error e => rfl
  | ok t =>
    have hrt : '\r' ∉ t := fun h => hr2 (LdifC.version_mem _ _ hv _ h)
    have := LdifC.records_crlf t [] [] hrt
    rw [show crlf [] = [] from rfl, List.map_nil] at this
    simp only [Bool.false_eq_true, if_false, this]
    exact LdifC.run_crlf env exec _ (LdifC.records_mem t [] [] '\r' hrt (by simp) (by simp)) st

/-- Such texts exist, folded lines included. -/
example : (∀ c ∈ str "dn: cn=\n a\nchangetype: delete\n", c ≠ '\r') ∧ hasUrl (unfold (str "dn: cn=\n a\nchangetype: delete\n")) = false ∧
    processLdif noControls acceptAll () (str "dn: cn=\r\n a\r\nchangetype: delete\r\n")
      = (([.delete (.text (str "cn=a")) []], ()), .ok [()]) := by
  refine ⟨?_, ?_, ?_⟩ <;> decide +kernel

end Laurelin.Props
