import Verif.Spec.Rfc2849
import Verif.Lemmas.Codec
import Verif.Lemmas.Regex
/-!
C42 (folding), C43 (values survive) for `format_ldif`.
-/
namespace Laurelin.Props
open Laurelin Laurelin.Ldif Laurelin.Spec.Ldif

namespace LdifP

theorem chunks_flatten (f : Nat) (s : Str) (h : s.length ≤ f) : (chunks75 f s).flatten = s := by
  induction f generalizing s with
  | zero => have : s = [] := List.length_eq_zero_iff.1 (by omega); subst this; rfl
  | succ f ih =>
    cases s with
    | nil => rfl
    | cons c t =>
      simp only [chunks75, List.flatten_cons]
      rw [ih _ (by simp only [List.length_drop, List.length_cons] at h ⊢; omega), List.take_append_drop]

theorem chunks_length (f : Nat) (s : Str) : ∀ x ∈ chunks75 f s, x.length ≤ 75 := by
  induction f generalizing s with
  | zero => simp [chunks75]
  | succ f ih =>
    cases s with
    | nil => simp [chunks75]
    | cons c t =>
      intro x hx
      simp only [chunks75, List.mem_cons] at hx
      rcases hx with rfl | hx
      · simp only [List.length_take]; omega
      · exact ih _ x hx

theorem chunks_ne_nil (f : Nat) (s : Str) (hs : s ≠ []) (h : s.length ≤ f) : chunks75 f s ≠ [] := by
  intro hc
  have := chunks_flatten f s h
  rw [hc] at this
  exact hs this.symm

theorem chunks_sub (f : Nat) (s : Str) (h : s.length ≤ f) : ∀ x ∈ chunks75 f s, ∀ c ∈ x, c ∈ s := by
  intro x hx c hc
  rw [← chunks_flatten f s h]
  exact List.mem_flatten.2 ⟨x, hx, hc⟩

theorem join_space (x : Str) (l : List Str) (h : l ≠ []) :
    x ++ str "\n " ++ pyJoin (str "\n ") l = pyJoin ['\n'] (x :: l.map (' ' :: ·)) := by
  induction l generalizing x with
  | nil => exact absurd rfl h
  | cons y l ih =>
    cases l with
    | nil => simp [pyJoin]
    | cons z l =>
      have := ih y (by simp)
      rw [pyJoin_cons _ _ _ (by simp), this]
      simp only [List.map_cons]
      rw [pyJoin_cons _ x _ (by simp)]
      rw [pyJoin_cons _ y _ (by simp), pyJoin_cons _ (' ' :: y) _ (by simp)]
      simp

/-- the physical lines of a folded line -/
def parts (line : Str) : List Str :=
  if line.length > 76 then line.take 76 :: (chunks75 line.length (line.drop 76)).map (' ' :: ·) else [line]

theorem fold_join (line : Str) : foldLine line = pyJoin ['\n'] (parts line) := by
  unfold foldLine parts
  split
  · rename_i h
    refine join_space _ _ (chunks_ne_nil _ _ ?_ (by simp))
    intro e
    have := congrArg List.length e
    simp only [List.length_drop, List.length_nil] at this
    omega
  · rfl

theorem parts_clean (line : Str) (h : '\n' ∉ line) : ∀ x ∈ parts line, '\n' ∉ x := by
  unfold parts
  split
  · intro x hx
    rcases List.mem_cons.1 hx with rfl | hx
    · exact fun hm => h (List.mem_of_mem_take hm)
    · obtain ⟨y, hy, rfl⟩ := List.mem_map.1 hx
      intro hm
      rcases List.mem_cons.1 hm with hm | hm
      · exact absurd hm (by decide)
      · exact h (List.mem_of_mem_drop (chunks_sub _ _ (by simp) y hy _ hm))
  · intro x hx
    rw [List.mem_singleton.1 hx]; exact h

theorem parts_ne_nil (line : Str) : parts line ≠ [] := by unfold parts; split <;> simp

theorem physical_fold (line : Str) (h : '\n' ∉ line) : physical (foldLine line) = parts line := by
  rw [physical, fold_join, split_join _ _ (parts_ne_nil line) (parts_clean line h)]

theorem joinLines_conts (l rest : List Str) :
    joinLines (l.map (' ' :: ·) ++ rest) = (l.flatten ++ (joinLines rest).1, (joinLines rest).2) := by
  induction l with
  | nil => simp
  | cons x l ih => simp only [List.map_cons, List.cons_append, joinLines, ih, List.flatten_cons, List.append_assoc]

theorem joinLines_start (l : Str) (h : l.head? ≠ some ' ') (rest : List Str) :
    joinLines (l :: rest) = ([], (l ++ (joinLines rest).1) :: (joinLines rest).2) := by
  rw [joinLines]
  intro t e
  simp [e] at h

theorem joinLines_parts (line : Str) (hs : line.head? ≠ some ' ') (rest : List Str) :
    joinLines (parts line ++ rest) = ([], (line ++ (joinLines rest).1) :: (joinLines rest).2) := by
  unfold parts
  split
  · rename_i h
    rw [List.cons_append, joinLines_start _ (by rw [List.head?_take]; simpa using hs), joinLines_conts,
      chunks_flatten _ _ (by simp), ← List.append_assoc, List.take_append_drop]
  · rw [List.singleton_append, joinLines_start _ hs]

theorem split_lines (a b : Str) : pySplit '\n' (a ++ '\n' :: b) = pySplit '\n' a ++ pySplit '\n' b := by
  induction a with
  | nil => rfl
  | cons x a ih =>
    rw [List.cons_append, pySplit, pySplit, ih]
    split
    · rfl
    · cases h : pySplit '\n' a with
      | nil => exact absurd h (pySplit_ne_nil _ _)
      | cons y l => rfl

theorem joinLines_nil_line : joinLines [[]] = ([], [[]]) := rfl

end LdifP

/-- **C42.** Every physical line written for an attribute value has at most 76 characters; every line after the first is a
continuation line. (The logical line has no newline in it: see `c42_lines_clean`.) -/
theorem c42_bounded (line : Str) (h : '\n' ∉ line) :
    (∀ l ∈ physical (foldLine line), l.length ≤ 76) ∧
    ∃ first conts, physical (foldLine line) = first :: conts ∧ ∀ l ∈ conts, ∃ t, l = ' ' :: t := by
  rw [LdifP.physical_fold line h]
  unfold LdifP.parts
  split
  · refine ⟨fun l hl => ?_, _, _, rfl, fun l hl => ?_⟩
    · rcases List.mem_cons.1 hl with rfl | hl
      · simp only [List.length_take]; omega
      · obtain ⟨y, hy, rfl⟩ := List.mem_map.1 hl
        have := LdifP.chunks_length _ _ y hy
        simp only [List.length_cons]; omega
    · obtain ⟨y, hy, rfl⟩ := List.mem_map.1 hl
      exact ⟨y, rfl⟩
  · refine ⟨fun l hl => ?_, line, [], rfl, by simp⟩
    rw [List.mem_singleton.1 hl]; omega

/-- **C42.** Joining the continuation lines gives the logical line back. -/
theorem c42_reversible (line : Str) (h : '\n' ∉ line) (hs : line.head? ≠ some ' ') : logical (foldLine line) = [line] := by
  have := LdifP.joinLines_parts line hs []
  rw [List.append_nil] at this
  rw [logical, LdifP.physical_fold line h, this]
  simp [joinLines]

/-- a value that is written in clear although it ends in a newline (see `c43_trailing_newline`) -/
def ClearNewline (v : Str) : Prop := ∃ w, v = w ++ ['\n'] ∧ w ≠ [] ∧ SafeString w

namespace LdifP

theorem reSafe_iff (c : Char) : reSafe c = true ↔ safeChar c := by
  simp only [reSafe, safeChar, Bool.or_eq_true, Bool.and_eq_true, Nat.ble_eq, or_assoc]

theorem reInit_iff (c : Char) : reInit c = true ↔ safeInitChar c := by
  have h1 : c = ' ' ↔ c.toNat = 0x20 := ⟨fun e => by rw [e]; rfl, fun e => Char.ext (UInt32.toNat_inj.1 e)⟩
  have h2 : c = ':' ↔ c.toNat = 0x3a := ⟨fun e => by rw [e]; rfl, fun e => Char.ext (UInt32.toNat_inj.1 e)⟩
  have h3 : c = '<' ↔ c.toNat = 0x3c := ⟨fun e => by rw [e]; rfl, fun e => Char.ext (UInt32.toNat_inj.1 e)⟩
  simp only [reInit, safeInitChar, safeChar, Bool.or_eq_true, Bool.and_eq_true, Nat.ble_eq, beq_iff_eq, ne_eq, h1, h2, h3]
  omega

theorem reClear_lang (s : Str) : reClear.Lang s ↔ s ≠ [] ∧ SafeString s := by
  simp only [reClear]
  rw [Rx.lang_cat]
  simp only [List.map_cons, List.map_nil, Spec.Abnf.cats, Spec.Abnf.cat, Rx.Lang, SafeString]
  constructor
  · rintro ⟨u, v, rfl, ⟨c, rfl, hc⟩, hv⟩
    rw [Rx.many_chr] at hv
    refine ⟨by simp, fun x hx => ?_, fun x hx => ?_⟩
    · rcases List.mem_append.1 hx with h | h
      · rw [List.mem_singleton.1 h]; exact ((reInit_iff c).1 hc).1
      · exact (reSafe_iff x).1 (hv x h)
    · simp at hx; rw [← hx]; exact (reInit_iff c).1 hc
  · rintro ⟨hne, h1, h2⟩
    cases s with
    | nil => exact absurd rfl hne
    | cons c t =>
      refine ⟨[c], t, rfl, ⟨c, rfl, (reInit_iff c).2 (h2 c rfl)⟩, ?_⟩
      rw [Rx.many_chr]
      exact fun x hx => (reSafe_iff x).2 (h1 x (by simp [hx]))

theorem clear_iff (v : Str) : reClear.anchored v = true ↔ (v ≠ [] ∧ SafeString v) ∨ ClearNewline v := by
  rw [Rx.anchored_iff, reClear_lang]
  simp only [reClear_lang, ClearNewline]

theorem safe_no_newline (s : Str) (h : SafeString s) : '\n' ∉ s := by
  intro hm
  have := h.1 _ hm
  simp [safeChar] at this

theorem b64_no (b : Bytes) (c : Char) (h : c.toNat < 33) : c ∉ Codec.b64Enc b := by
  intro hm
  have := (Codec.b64_chars b c hm).1.1
  omega

theorem encode_no_newline (v : Str) (h : ¬ ClearNewline v) : '\n' ∉ encodeValue v := by
  unfold encodeValue
  have hb : '\n' ∉ str ": " ++ b64ascii v := by
    intro hm
    rcases List.mem_append.1 hm with hm | hm
    · exact absurd hm (by decide)
    · exact b64_no _ _ (by decide) hm
  split
  · exact hb
  · rename_i hc
    split
    · exact hb
    · intro hm
      rcases List.mem_cons.1 hm with hm | hm
      · exact absurd hm (by decide)
      · rcases (clear_iff v).1 (by simpa using hc) with ⟨_, hs⟩ | hs
        · exact safe_no_newline v hs hm
        · exact h hs

end LdifP

/-- a value whose text is not affected by `c43_trailing_newline` -/
def Writable : LVal → Prop
  | .text s => ¬ ClearNewline s
  | .bin b => ∀ s, Codec.utf8Dec b = some s → ¬ ClearNewline s

/-- **C42.** The logical lines `format_ldif` folds contain no newline (for attribute names without one, and leaving out the
values of `c43_trailing_newline`), so the two theorems above apply to them. -/
theorem c42_lines_clean (attr : Str) (v : LVal) (ha : '\n' ∉ attr) (hv : Writable v) : '\n' ∉ attrLine attr v := by
  unfold attrLine
  have key : ∀ s, ¬ ClearNewline s → '\n' ∉ attr ++ ':' :: encodeValue s := by
    intro s hs hm
    rcases List.mem_append.1 hm with hm | hm
    · exact ha hm
    · rcases List.mem_cons.1 hm with hm | hm
      · exact absurd hm (by decide)
      · exact LdifP.encode_no_newline s hs hm
  cases v with
  | text s => exact key s hv
  | bin b =>
    dsimp only
    split
    · rename_i s h; exact key s (hv s h)
    · intro hm
      rcases List.mem_append.1 hm with hm | hm
      · rcases List.mem_append.1 hm with hm | hm
        · exact ha hm
        · exact absurd hm (by decide)
      · exact LdifP.b64_no _ _ (by decide) hm

theorem LdifP.logical_lines (attrs : List (Str × LVal))
    (ha : ∀ av ∈ attrs, av.1 ≠ [] ∧ av.1.head? ≠ some ' ' ∧ '\n' ∉ av.1) (hv : ∀ av ∈ attrs, Writable av.2) :
    joinLines (pySplit '\n' (attrs.flatMap (fun av => foldLine (attrLine av.1 av.2) ++ ['\n']))) =
      ([], attrs.map (fun av => attrLine av.1 av.2) ++ [[]]) := by
  induction attrs with
  | nil => rfl
  | cons av attrs ih =>
    obtain ⟨h1, h2, h3⟩ := ha av (by simp)
    have hc := c42_lines_clean av.1 av.2 h3 (hv av (by simp))
    have hstart : (attrLine av.1 av.2).head? ≠ some ' ' := by
      obtain ⟨c, t, he⟩ : ∃ c t, av.1 = c :: t := by
        cases h : av.1 with
        | nil => exact absurd h h1
        | cons c t => exact ⟨c, t, rfl⟩
      rw [he] at h2
      unfold attrLine
      simp only [he]
      split
      · simpa using h2
      · split
        · simpa using h2
        · simpa using h2
    have hp := LdifP.physical_fold _ hc
    rw [physical] at hp
    rw [List.flatMap_cons, List.append_assoc, List.singleton_append, LdifP.split_lines, hp,
      LdifP.joinLines_parts _ hstart, ih (fun x hx => ha x (by simp [hx])) (fun x hx => hv x (by simp [hx]))]
    simp

/-- **C42.** The logical lines of the whole output are the DN line and one line per value, in order. -/
theorem c42_output (dn : Str) (attrs : List (Str × LVal)) (hd : ¬ ClearNewline dn)
    (ha : ∀ av ∈ attrs, av.1 ≠ [] ∧ av.1.head? ≠ some ' ' ∧ '\n' ∉ av.1) (hv : ∀ av ∈ attrs, Writable av.2) :
    logical (formatLdif dn attrs) = dnLine dn :: attrs.map (fun av => attrLine av.1 av.2) ++ [[]] := by
  have hdn : '\n' ∉ dnLine dn := by
    intro hm
    rcases List.mem_append.1 hm with hm | hm
    · exact absurd hm (by decide)
    · exact LdifP.encode_no_newline dn hd hm
  rw [logical, physical, formatLdif, List.append_assoc, List.singleton_append, LdifP.split_lines, split_none _ _ hdn,
    List.singleton_append, LdifP.joinLines_start _ (by simp [dnLine]), LdifP.logical_lines attrs ha hv]
  simp

/-- **C42, finding.** The DN line is never folded: lines of any length are written. -/
theorem c42_dn_unbounded (n : Nat) : ∃ dn : Str, ∃ l ∈ physical (formatLdif dn []), n < l.length := by
  have hs : SafeString (List.replicate (n + 1) 'a') := by
    refine ⟨fun c hc => ?_, fun c hc => ?_⟩
    · rw [List.eq_of_mem_replicate hc]; simp [safeChar]
    · have : c = 'a' := List.eq_of_mem_replicate (List.mem_of_mem_head? (by simpa using hc))
      rw [this]; simp [safeInitChar, safeChar]
  refine ⟨List.replicate (n + 1) 'a', dnLine (List.replicate (n + 1) 'a'), ?_, ?_⟩
  · have hc : ¬ ClearNewline (List.replicate (n + 1) 'a') := by
      rintro ⟨w, he, -, -⟩
      have hm : '\n' ∈ List.replicate (n + 1) 'a' := by rw [he]; simp
      exact absurd (List.eq_of_mem_replicate hm) (by decide)
    have hdn : '\n' ∉ dnLine (List.replicate (n + 1) 'a') := by
      intro hm
      rcases List.mem_append.1 hm with hm | hm
      · exact absurd hm (by decide)
      · exact LdifP.encode_no_newline _ hc hm
    rw [formatLdif, physical, List.append_assoc, List.singleton_append, LdifP.split_lines, split_none _ _ hdn]
    simp
  · have hr : reClear.anchored (List.replicate (n + 1) 'a') = true := (LdifP.clear_iff _).2 (.inl ⟨by simp, hs⟩)
    have he : endsWith (List.replicate (n + 1) 'a') [' '] = false := by
      rw [endsWith, Bool.eq_false_iff]
      intro h
      have hm : ' ' ∈ List.replicate (n + 1) 'a' := (List.isSuffixOf_iff_suffix.1 h).subset (by simp)
      exact absurd (List.eq_of_mem_replicate hm) (by decide)
    simp only [dnLine, encodeValue, hr, he]
    simp
    omega

/-! ### C43 -/

namespace LdifP

theorem utf8_ascii (s : Str) (h : SafeString s) : ∀ c ∈ s, c.toNat < 128 := by
  intro c hc
  have := h.1 c hc
  simp only [safeChar] at this
  omega

/-- two ways to cut a text into spaces and a rest that does not begin with a space agree -/
theorem fill_unique (f1 f2 s1 s2 : Str) (h1 : ∀ c ∈ f1, c = ' ') (h2 : ∀ c ∈ f2, c = ' ') (g1 : s1.head? ≠ some ' ')
    (g2 : s2.head? ≠ some ' ') (e : f1 ++ s1 = f2 ++ s2) : s1 = s2 := by
  induction f1 generalizing f2 with
  | nil =>
    cases f2 with
    | nil => simpa using e
    | cons c f2 =>
      rw [h2 c (by simp)] at e
      simp only [List.nil_append, List.cons_append] at e
      rw [e] at g1
      exact absurd rfl g1
  | cons c f1 ih =>
    cases f2 with
    | nil =>
      rw [h1 c (by simp)] at e
      simp only [List.nil_append, List.cons_append] at e
      rw [← e] at g2
      exact absurd rfl g2
    | cons d f2 =>
      simp only [List.cons_append, List.cons.injEq] at e
      exact ih f2 (fun x hx => h1 x (by simp [hx])) (fun x hx => h2 x (by simp [hx])) e.2

theorem b64_head (b : Bytes) : (Codec.b64Enc b).head? ≠ some ' ' := by
  intro h
  exact b64_no b ' ' (by decide) (List.mem_of_mem_head? (by simpa using h))

theorem safe_head (s : Str) (h : SafeString s) : s.head? ≠ some ' ' := fun e => (h.2 _ e).2.1 rfl

theorem encode_reads (attr s : Str) (h : ¬ ClearNewline s) : Reads (attr ++ ':' :: encodeValue s) attr (Codec.utf8Enc s) := by
  have hb : Reads (attr ++ ':' :: (str ": " ++ b64ascii s)) attr (Codec.utf8Enc s) :=
    .base64 [' '] (by simp) (by simp [b64ascii])
  unfold encodeValue
  split
  · exact hb
  · rename_i hc
    split
    · exact hb
    · rcases (clear_iff s).1 (by simpa using hc) with ⟨_, hs⟩ | hs
      · exact .clear [' '] s (by simp) hs (by simp) rfl
      · exact absurd hs h

end LdifP

/-- **C43.** What a value is written as: in clear exactly when it is a non-empty SAFE-STRING that does not end in a space — or when
it is one followed by a newline, which is the mistake of `c43_trailing_newline` —, otherwise in base64. -/
theorem c43_form (v : Str) :
    ((v ≠ [] ∧ SafeString v ∧ v.getLast? ≠ some ' ') ∨ ClearNewline v → encodeValue v = ' ' :: v) ∧
    (¬ ((v ≠ [] ∧ SafeString v ∧ v.getLast? ≠ some ' ') ∨ ClearNewline v) →
      encodeValue v = str ": " ++ Codec.b64Enc (Codec.utf8Enc v)) := by
  have hends : endsWith v [' '] = true ↔ v.getLast? = some ' ' := by
    rw [endsWith, List.isSuffixOf_iff_suffix]
    constructor
    · rintro ⟨t, rfl⟩; simp
    · intro h
      obtain ⟨t, ht⟩ := List.getLast?_eq_some_iff.1 h
      exact ⟨t, ht.symm⟩
  have hnl : ClearNewline v → v.getLast? ≠ some ' ' := by rintro ⟨w, rfl, -, -⟩; simp
  have hcl := LdifP.clear_iff v
  unfold encodeValue b64ascii
  constructor
  · rintro (⟨ha, hb, hc⟩ | hb)
    · rw [if_neg (by simp [hcl.2 (.inl ⟨ha, hb⟩)]), if_neg (fun e => hc (hends.1 e))]
    · rw [if_neg (by simp [hcl.2 (.inr hb)]), if_neg (fun e => hnl hb (hends.1 e))]
  · intro hn
    by_cases h1 : reClear.anchored v = true
    · have h2 : endsWith v [' '] = true := by
        rw [hends]
        rcases hcl.1 h1 with ⟨ha, hb⟩ | hb
        · exact Classical.byContradiction fun hc => hn (.inl ⟨ha, hb, hc⟩)
        · exact absurd (.inr hb) hn
      rw [if_neg (by simp [h1]), if_pos h2]
    · rw [if_pos (by simpa using h1)]

/-- **C43.** Each line reads back (RFC 2849) as the attribute and the octets of the value, except for the values of
`c43_trailing_newline`. -/
theorem c43_reads_partial (attr : Str) (v : LVal) (hv : Writable v) : Reads (attrLine attr v) attr (octets v) := by
  cases v with
  | text s => exact LdifP.encode_reads attr s hv
  | bin b =>
    simp only [attrLine, octets]
    split
    · rename_i s h
      have := LdifP.encode_reads attr s (hv s h)
      rwa [Codec.utf8_dec_enc b s h] at this
    · exact .base64 [' '] (by simp) (by simp)

/-- **C43.** The DN is written so that it reads back. -/
theorem c43_dn_partial (dn : Str) (h : ¬ ClearNewline dn) : Reads (dnLine dn) (str "dn") (Codec.utf8Enc dn) := by
  have := LdifP.encode_reads (str "dn") dn h
  simpa [dnLine] using this

/-- **C43.** A line has one reading: no other value could have been meant. -/
theorem c43_unambiguous (line attr attr' : Str) (v v' : Bytes) (ha : ':' ∉ attr) (ha' : ':' ∉ attr') (h : Reads line attr v)
    (h' : Reads line attr' v') : attr = attr' ∧ v = v' := by
  have cut : ∀ r r' : Str, attr ++ ':' :: r = attr' ++ ':' :: r' → attr = attr' ∧ r = r' := by
    intro r r' e
    have h1 := (splitFirst_some ':' (attr ++ ':' :: r) attr r).2 ⟨ha, rfl⟩
    have h2 := (splitFirst_some ':' (attr ++ ':' :: r) attr' r').2 ⟨ha', e⟩
    rw [h1] at h2
    simpa using h2
  have clash : ∀ (fill s : Str) (r : Str), (∀ c ∈ fill, c = ' ') → SafeString s → fill ++ s ≠ ':' :: r := by
    intro fill s r hf hs e
    cases fill with
    | nil =>
      simp only [List.nil_append] at e
      exact (hs.2 ':' (by simp [e])).2.2.1 rfl
    | cons c fill =>
      simp only [List.cons_append, List.cons.injEq] at e
      exact absurd ((hf c (by simp)).symm.trans e.1) (by decide)
  cases h with
  | clear fill s hf hs hl hv =>
    cases h' with
    | clear fill' s' hf' hs' hl' hv' =>
      obtain ⟨e1, e2⟩ := cut _ _ (hl.symm.trans hl')
      refine ⟨e1, ?_⟩
      rw [hv, hv', LdifP.fill_unique fill fill' s s' hf hf' (LdifP.safe_head s hs) (LdifP.safe_head s' hs') e2]
    | base64 fill' hf' hl' =>
      exact absurd (cut _ _ (hl.symm.trans hl')).2 (clash fill s _ hf hs)
  | base64 fill hf hl =>
    cases h' with
    | clear fill' s' hf' hs' hl' hv' =>
      exact absurd (cut _ _ (hl.symm.trans hl')).2.symm (clash fill' s' _ hf' hs')
    | base64 fill' hf' hl' =>
      obtain ⟨e1, e2⟩ := cut _ _ (hl.symm.trans hl')
      refine ⟨e1, Codec.b64_injective _ _ ?_⟩
      exact LdifP.fill_unique fill fill' _ _ hf hf' (LdifP.b64_head _) (LdifP.b64_head _) (by simpa using e2)

/-- **C43, finding.** A SAFE-STRING with a newline at its end is written in clear (`$` in the expression also matches before a final
newline), and what is written does not read back as that value. -/
theorem c43_trailing_newline (attr w : Str) (hw : w ≠ []) (hs : SafeString w) :
    attrLine attr (.text (w ++ ['\n'])) = attr ++ str ": " ++ w ++ ['\n'] ∧
    (':' ∉ attr → ∀ v, ¬ Reads (attrLine attr (.text (w ++ ['\n']))) attr v) ∧
    logical (foldLine (attrLine (str "cn") (.text (str "a\n")))) = [str "cn: a", []] := by
  have e : attrLine attr (.text (w ++ ['\n'])) = attr ++ str ": " ++ w ++ ['\n'] := by
    simp only [attrLine]
    rw [(c43_form _).1 (.inr ⟨w, rfl, hw, hs⟩)]
    simp
  refine ⟨e, fun ha v h => ?_, by decide +kernel⟩
  rw [e] at h
  cases h with
  | clear fill s hf hs' hl hv =>
    have hn : ∀ l : Str, attr ++ str ": " ++ w ++ ['\n'] = attr ++ ':' :: l → '\n' ∈ l := by
      intro l hl
      have : str ": " ++ w ++ ['\n'] = ':' :: l := by simpa using hl
      have hm : '\n' ∈ ':' :: l := by rw [← this]; simp
      simpa using hm
    have := hn _ hl
    rcases List.mem_append.1 this with h | h
    · exact absurd (hf _ h) (by decide)
    · exact LdifP.safe_no_newline s hs' h
  | base64 fill hf hl =>
    simp at hl

/-- The theorems above are about real output: a value in clear, one with a leading space, one that is not ASCII and one that is
not UTF-8; and a long value, folded. -/
example :
    formatLdif (str "cn=foo,o=bar") [(str "cn", .text (str "foo")), (str "sn", .text (str " x")), (str "l", .text (str "é")),
      (str "jpegPhoto", .bin [0xff, 0xd8])] =
      str "dn: cn=foo,o=bar\ncn: foo\nsn:: IHg=\nl:: w6k=\njpegPhoto:: /9g=\n" := by decide +kernel

example : (physical (foldLine (attrLine (str "cn") (.text (List.replicate 200 'a'))))).map List.length = [76, 76, 54] := by
  decide +kernel

example : ¬ ClearNewline (str "foo") ∧ ¬ ClearNewline (str "foo\n\n") ∧ Writable (.bin [0xff, 0xd8]) := by
  refine ⟨?_, ?_, ?_⟩
  · rintro ⟨w, h, -, -⟩
    have := congrArg List.getLast? h
    simp at this
  · rintro ⟨w, h, -, hs⟩
    have h2 := congrArg List.dropLast h
    simp at h2
    exact LdifP.safe_no_newline w hs (by rw [← h2]; simp)
  · intro s h
    have : Codec.utf8Dec [0xff, 0xd8] = none := by decide +kernel
    rw [this] at h; cases h

end Laurelin.Props
